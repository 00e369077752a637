import Verif.Lemmas.Borrow
import Verif.Spec.BorrowViews

/-!
# Borrowing views: the guards before and after
-/
namespace Verif.Borrow

structure CellRoom (c : Cell) (n : Nat) : Prop where
  few : n < HIGH / 2
  shared : c.shared + n + 1 < HIGH
  alive : c.dying = 0
  failed : c.exclusive ≠ 0 → c.word + n < MAXFAILED

theorem CellRoom.small {c : Cell} {n : Nat} (h : CellRoom c n) : Small c := by
  have := h.shared
  have := h.alive
  have := high
  exact ⟨by omega, by omega⟩

theorem cell_read {c : Cell} {n : Nat} (hi : Inv c) (hr : CellRoom c (n + 1)) :
    ∃ c' g, c.step .read = some (c', g) ∧ CellRoom c' n ∧ c'.reborrowed = c.reborrowed ∧ c'.exclusive = c.exclusive
      ∧ ((g = .guard ∧ c'.shared = c.shared + 1) ∨ (g = .error ∧ c'.shared = c.shared ∧ c.exclusive ≠ 0)) := by
  have h1 := hr.few
  have h2 := hr.shared
  have h3 := hr.alive
  have h4 := hr.failed
  by_cases he : c.exclusive = 0
  · exact ⟨_, _, step_read hi hr.small he, ⟨by omega, by show c.shared + 1 + n + 1 < HIGH; omega, h3, fun h => absurd he h⟩, rfl, rfl,
      .inl ⟨rfl, rfl⟩⟩
  · rcases step_read_held hi hr.small he with ⟨hs, hlt⟩ | hs
    · exact ⟨_, _, hs, ⟨by omega, by show c.shared + n + 1 < HIGH; omega, h3, fun _ => by show c.word + 1 + n < MAXFAILED; have := h4 he; omega⟩,
        rfl, rfl, .inr ⟨rfl, rfl, he⟩⟩
    · exfalso
      have := h4 he
      have hm := hi.mode
      have hh := high
      have hmx := maxFailed
      have hw := word
      have h1 : c.word + 1 < WORD := by omega
      have e : c.step .read = some ({ c with word := c.word + 1 }, .error) := by
        unfold Cell.step read
        rw [fetchAdd_eq h1]
        dsimp only
        rw [testBit63 h1, if_pos (by simp; omega)]
        unfold checkOverflow
        rw [if_neg (by omega), if_neg (by omega)]
        rfl
      rw [e] at hs
      exact absurd (congrArg Prod.snd (Option.some.inj hs)) (by simp)

theorem cell_clone {c : Cell} {n : Nat} (hi : Inv c) (hr : CellRoom c (n + 1)) (hs : c.shared ≠ 0) :
    ∃ c', c.step .clone = some (c', .guard) ∧ CellRoom c' n ∧ c'.reborrowed = c.reborrowed ∧ c'.exclusive = c.exclusive
      ∧ c'.shared = c.shared + 1 := by
  have hm := hi.mode
  have h1 := hr.few
  have h2 := hr.shared
  have he : c.exclusive = 0 := by omega
  refine ⟨{ c with word := c.word + 1, shared := c.shared + 1 }, ?_, ⟨by omega, by show c.shared + 1 + n + 1 < HIGH; omega, hr.alive,
    fun h => absurd he h⟩, rfl, rfl, rfl⟩
  unfold Cell.step
  dsimp only
  rw [if_neg hs, reborrow_shared hi hr.small he]
  rfl

theorem cell_write {c : Cell} {n : Nat} (hi : Inv c) (hr : CellRoom c (n + 1)) :
    ∃ c' g, c.step .write = some (c', g) ∧ CellRoom c' n ∧ c'.shared = c.shared ∧ c'.reborrowed = c.reborrowed
      ∧ ((g = .guard ∧ c'.exclusive = c.exclusive + 1 ∧ c.guards = 0) ∨ (g = .error ∧ c'.exclusive = c.exclusive ∧ c.guards ≠ 0)) := by
  have h1 := hr.few
  have h2 := hr.shared
  have h3 := hr.alive
  have h4 := hr.failed
  by_cases hg : c.guards = 0
  · exact ⟨_, _, step_write hi hg, ⟨by omega, by show c.shared + n + 1 < HIGH; omega, h3, fun _ => by
      show HIGH + n < MAXFAILED
      have := high
      have := maxFailed
      omega⟩, rfl, rfl, .inl ⟨rfl, rfl, hg⟩⟩
  · exact ⟨_, _, step_write_held hi hg, ⟨by omega, by omega, h3, fun h => by have := h4 h; omega⟩, rfl, rfl, .inr ⟨rfl, rfl, hg⟩⟩

theorem cell_exclusiveRead {c : Cell} {n : Nat} (hi : Inv c) (hr : CellRoom c (n + 1)) :
    ∃ c' g, c.step .exclusiveRead = some (c', g) ∧ CellRoom c' n ∧ c'.reborrowed = c.reborrowed ∧ c'.exclusive = c.exclusive
      ∧ ((g = .guard ∧ c'.shared = c.shared + 1 ∧ c.guards = 0) ∨ (g = .error ∧ c'.shared = c.shared ∧ c.guards ≠ 0)) := by
  have h1 := hr.few
  have h2 := hr.shared
  have h3 := hr.alive
  have h4 := hr.failed
  by_cases hg : c.guards = 0
  · have hg' := hg
    unfold Cell.guards at hg'
    exact ⟨_, _, step_exclusiveRead hi hg, ⟨by omega, by show c.shared + 1 + n + 1 < HIGH; omega, h3,
      fun h => absurd (show c.exclusive = 0 by omega) h⟩, rfl, rfl, .inl ⟨rfl, rfl, hg⟩⟩
  · exact ⟨_, _, step_exclusiveRead_held hi hg, ⟨by omega, by omega, h3, fun h => by have := h4 h; omega⟩, rfl, rfl, .inr ⟨rfl, rfl, hg⟩⟩

theorem cell_dropShared {c : Cell} {n : Nat} (hr : CellRoom c n) (hs : c.shared ≠ 0) (hi : Inv c) :
    ∃ c', c.step .dropShared = some (c', .guard) ∧ CellRoom c' n ∧ c'.reborrowed = c.reborrowed ∧ c'.exclusive = c.exclusive
      ∧ c'.shared + 1 = c.shared := by
  have hm := hi.mode
  refine ⟨{ c with word := Borrow.dropShared c.word, shared := c.shared - 1 }, ?_,
    ⟨hr.few, ?_, hr.alive, fun h => ?_⟩, rfl, rfl, ?_⟩
  · simp only [Cell.step, hs, if_false]
  · have := hr.shared
    show c.shared - 1 + n + 1 < HIGH
    omega
  · exact absurd (show c.exclusive = 0 by omega) h
  · show c.shared - 1 + 1 = c.shared
    omega

theorem cell_dropExclusive {c : Cell} {n : Nat} (hr : CellRoom c n) (hx : c.exclusive ≠ 0) (hb : c.reborrowed = 0) (hi : Inv c) :
    ∃ c', c.step .dropExclusive = some (c', .guard) ∧ CellRoom c' n ∧ c'.reborrowed = c.reborrowed ∧ c'.shared = c.shared
      ∧ c'.exclusive + 1 = c.exclusive := by
  have hm := hi.mode
  refine ⟨{ c with word := Borrow.dropExclusive c.word, exclusive := c.exclusive - 1 }, ?_,
    ⟨hr.few, hr.shared, hr.alive, fun h => ?_⟩, rfl, rfl, ?_⟩
  · simp only [Cell.step]
    rw [if_neg (by omega)]
  · exact absurd (show c.exclusive - 1 = 0 by omega) h
  · show c.exclusive - 1 + 1 = c.exclusive
    omega

/-- The invariant of a world with room for `n` more borrows. -/
structure Good (st : Cells) (n : Nat) : Prop where
  ok : st.Ok
  room : ∀ s, CellRoom (st.cell s) n

theorem CellRoom.mono {c : Cell} {n m : Nat} (h : CellRoom c n) (hm : m ≤ n) : CellRoom c m := by
  have h1 := h.few
  have h2 := h.shared
  exact ⟨by omega, by omega, h.alive, fun he => by have := h.failed he; omega⟩

theorem Good.mono {st : Cells} {n m : Nat} (h : Good st n) (hm : m ≤ n) : Good st m :=
  ⟨h.ok, fun s => (h.room s).mono hm⟩

theorem Good.inv {st : Cells} {n : Nat} (h : Good st n) (s : Nat) : Inv (st.cell s) := by
  obtain ⟨_, hr⟩ := h.ok.reach s
  exact hr.inv

/-- The configuration of the cells does not change, storages stay. -/
structure SameSetup (st st' : Cells) : Prop where
  owner : st'.owner = st.owner
  isSync : st'.isSync = st.isSync
  me : st'.me = st.me
  present : ∀ s, st.present s = true → st'.present s = true

theorem SameSetup.refl (st : Cells) : SameSetup st st := ⟨rfl, rfl, rfl, fun _ h => h⟩
theorem SameSetup.trans {a b c : Cells} (h : SameSetup a b) (h' : SameSetup b c) : SameSetup a c :=
  ⟨h'.owner.trans h.owner, h'.isSync.trans h.isSync, h'.me.trans h.me, fun s hs => h'.present s (h.present s hs)⟩

/-- The counts move by `f` and `g`. -/
structure Moves (st st' : Cells) (f g : Nat → Int) : Prop where
  shared : ∀ s, ((st'.cell s).shared : Int) = (st.cell s).shared + f s
  exclusive : ∀ s, ((st'.cell s).exclusive : Int) = (st.cell s).exclusive + g s
  reborrowed : ∀ s, (st'.cell s).reborrowed = (st.cell s).reborrowed
  setup : SameSetup st st'

def only (t : Nat) (d : Int) : Nat → Int := fun s => if s = t then d else 0

theorem Moves.refl (st : Cells) : Moves st st (fun _ => 0) (fun _ => 0) :=
  ⟨fun _ => by simp, fun _ => by simp, fun _ => rfl, SameSetup.refl st⟩

theorem Moves.trans {a b c : Cells} {f g f' g' : Nat → Int} (h : Moves a b f g) (h' : Moves b c f' g') :
    Moves a c (fun s => f s + f' s) (fun s => g s + g' s) :=
  ⟨fun s => by have := h.shared s; have := h'.shared s; omega,
   fun s => by have := h.exclusive s; have := h'.exclusive s; omega,
   fun s => (h'.reborrowed s).trans (h.reborrowed s), h.setup.trans h'.setup⟩

theorem Moves.congr {a b : Cells} {f g f' g' : Nat → Int} (h : Moves a b f g) (hf : ∀ s, f s = f' s) (hg : ∀ s, g s = g' s) :
    Moves a b f' g' :=
  ⟨fun s => hf s ▸ h.shared s, fun s => hg s ▸ h.exclusive s, h.reborrowed, h.setup⟩

/-- A step on one cell, seen from the world. -/
theorem act_of {st : Cells} {n m : Nat} {s : Nat} {e : Ev} {c' : Cell} {g : Got} (hg : Good st n)
    (hmn : m ≤ n) (hc : (st.cell s).step e = some (c', g)) (hgot : g = .guard ∨ g = .error) (hr : CellRoom c' m)
    (habs : st.present s = true ∨ c' = Cell.new) :
    st.act s e = .ok (st.set s c', decide (g = .guard)) ∧ Good (st.set s c') m := by
  refine ⟨?_, ⟨⟨fun k => ?_, fun k hk => ?_, hg.ok.base⟩, fun k => ?_⟩⟩
  · unfold Cells.act
    rw [hc]
    rcases hgot with rfl | rfl <;> rfl
  · by_cases hk : k = s
    · subst hk
      obtain ⟨h, hh⟩ := hg.ok.reach k
      refine ⟨h ++ [(e, g)], ?_⟩
      simp only [Cells.set, if_true]
      exact .step hh (hg.room k).small hc
    · simp only [Cells.set, hk, if_false]
      exact hg.ok.reach k
  · by_cases hks : k = s
    · subst hks
      rcases habs with h | h
      · have hk : st.present k = false := hk
        rw [h] at hk
        cases hk
      · simp only [Cells.set, if_true]
        exact h
    · simp only [Cells.set, hks, if_false]
      exact hg.ok.absent k hk
  · by_cases hk : k = s
    · subst hk
      simp only [Cells.set, if_true]
      exact hr
    · simp only [Cells.set, hk, if_false]
      exact (hg.room k).mono hmn

theorem moves_set {st : Cells} {s : Nat} {c' : Cell} {a b : Int} (h1 : (c'.shared : Int) = (st.cell s).shared + a)
    (h2 : (c'.exclusive : Int) = (st.cell s).exclusive + b) (h3 : c'.reborrowed = (st.cell s).reborrowed) :
    Moves st (st.set s c') (only s a) (only s b) := by
  refine ⟨fun k => ?_, fun k => ?_, fun k => ?_, ⟨rfl, rfl, rfl, fun _ h => h⟩⟩
  all_goals
    by_cases hk : k = s
    · subst hk
      simp [Cells.set, only, *]
    · simp [Cells.set, only, hk]


theorem dropAll_spec {st : Cells} {n : Nat} (all : Bool) (hg : Good st n) (hs : all = true → (st.cell allCell).shared ≠ 0) :
    ∃ st', st.dropAll all = .ok st' ∧ Good st' n ∧ Moves st st' (if all then only allCell (-1) else fun _ => 0) (fun _ => 0) := by
  unfold Cells.dropAll
  cases all with
  | false => exact ⟨st, rfl, hg, Moves.refl st⟩
  | true =>
    obtain ⟨c', h1, h2, h3, h4, h5⟩ := cell_dropShared (hg.room allCell) (hs rfl) (hg.inv allCell)
    obtain ⟨ha, hgood⟩ := act_of hg (Nat.le_refl n) h1 (.inl rfl) h2 (.inl hg.ok.base.1)
    refine ⟨_, ?_, hgood, (moves_set (a := -1) (b := 0) (by omega) (by omega) h3).congr (fun _ => rfl) (fun s => by simp [only])⟩
    simp only [if_true]
    rw [ha]
    rfl

theorem cloneAll_spec {st : Cells} {n : Nat} (all : Bool) (hg : Good st (n + 1)) (hs : all = true → (st.cell allCell).shared ≠ 0) :
    ∃ st', st.cloneAll all = .ok st' ∧ Good st' n ∧ Moves st st' (if all then only allCell 1 else fun _ => 0) (fun _ => 0) := by
  unfold Cells.cloneAll
  cases all with
  | false => exact ⟨st, rfl, hg.mono (by omega), Moves.refl st⟩
  | true =>
    obtain ⟨c', h1, h2, h3, h4, h5⟩ := cell_clone (hg.inv allCell) (hg.room allCell) (hs rfl)
    obtain ⟨ha, hgood⟩ := act_of hg (by omega) h1 (.inl rfl) h2 (.inl hg.ok.base.1)
    refine ⟨_, ?_, hgood, (moves_set (a := 1) (b := 0) (by omega) (by omega) h3).congr (fun _ => rfl) (fun s => by simp [only])⟩
    simp only [if_true]
    rw [ha]
    rfl

theorem dropGuard_spec {st : Cells} {n : Nat} (s : Nat) (x : Bool) (hg : Good st n) (hp : st.present s = true)
    (hs : x = false → (st.cell s).shared ≠ 0) (hx : x = true → (st.cell s).exclusive ≠ 0 ∧ (st.cell s).reborrowed = 0) :
    ∃ st', st.dropGuard s x = .ok st' ∧ Good st' n
      ∧ Moves st st' (only s (if x then 0 else -1)) (only s (if x then -1 else 0)) := by
  unfold Cells.dropGuard
  cases x with
  | false =>
    obtain ⟨c', h1, h2, h3, h4, h5⟩ := cell_dropShared (hg.room s) (hs rfl) (hg.inv s)
    obtain ⟨ha, hgood⟩ := act_of hg (Nat.le_refl n) h1 (.inl rfl) h2 (.inl hp)
    refine ⟨_, ?_, hgood, (moves_set (a := -1) (b := 0) (by omega) (by omega) h3)⟩
    simp only [Bool.false_eq_true, if_false]
    rw [ha]
    rfl
  | true =>
    obtain ⟨c', h1, h2, h3, h4, h5⟩ := cell_dropExclusive (hg.room s) (hx rfl).1 (hx rfl).2 (hg.inv s)
    obtain ⟨ha, hgood⟩ := act_of hg (Nat.le_refl n) h1 (.inl rfl) h2 (.inl hp)
    refine ⟨_, ?_, hgood, (moves_set (a := 0) (b := -1) (by omega) (by omega) h3)⟩
    simp only [if_true]
    rw [ha]
    rfl

/-- The guard was refused because of another guard, or of the thread. -/
def Refused (st : Cells) (s : Nat) (x : Bool) : Prop :=
  (st.cell s).exclusive ≠ 0 ∨ (x = true ∨ st.isSync s = false) ∧ (st.cell s).guards ≠ 0
  ∨ (x = true ∨ st.isSync s = false) ∧ ∃ t, st.owner s = some t ∧ t ≠ st.me

theorem guard_spec {st : Cells} {n : Nat} (s : Nat) (x : Bool) (hg : Good st (n + 1)) (hp : st.present s = true) :
    ∃ st' got, st.guard s x = .ok (st', got) ∧ Good st' n
      ∧ Moves st st' (only s (if got && !x then 1 else 0)) (only s (if got && x then 1 else 0))
      ∧ (got = true → x = true → (st.cell s).reborrowed = 0) ∧ (got = false → Refused st s x) := by
  have same : Moves st st (only s 0) (only s 0) := (Moves.refl st).congr (fun k => by simp [only]) (fun k => by simp [only])
  unfold Cells.guard
  have hread : ∃ st' got, st.act s .read = .ok (st', got) ∧ Good st' n ∧ Moves st st' (only s (if got then 1 else 0)) (only s 0)
      ∧ (got = false → (st.cell s).exclusive ≠ 0) := by
    obtain ⟨c', g, h1, h2, h3, h4, ⟨rfl, h5⟩ | ⟨rfl, h5, h6⟩⟩ := cell_read (hg.inv s) (hg.room s)
    · obtain ⟨ha, hgood⟩ := act_of hg (by omega) h1 (.inl rfl) h2 (.inl hp)
      exact ⟨_, _, ha, hgood, moves_set (by simp [h5]) (by omega) h3, by simp⟩
    · obtain ⟨ha, hgood⟩ := act_of hg (by omega) h1 (.inr rfl) h2 (.inl hp)
      exact ⟨_, _, ha, hgood, moves_set (by simp [h5]) (by omega) h3, fun _ => h6⟩
  cases x with
  | false =>
    simp only [Bool.false_eq_true, if_false]
    have finish : ∀ {e}, (∃ st' got, st.act s e = .ok (st', got) ∧ Good st' n ∧ Moves st st' (only s (if got then 1 else 0)) (only s 0)
        ∧ (got = false → Refused st s false)) → ∃ st' got, st.act s e = .ok (st', got) ∧ Good st' n
        ∧ Moves st st' (only s (if got && !false then 1 else 0)) (only s (if got && false then 1 else 0))
        ∧ (got = true → False → (st.cell s).reborrowed = 0) ∧ (got = false → Refused st s false) := by
      rintro e ⟨st', got, h1, h2, h3, h4⟩
      exact ⟨st', got, h1, h2, by simpa using h3, fun _ h => h.elim, h4⟩
    have hread' : ∃ st' got, st.act s .read = .ok (st', got) ∧ Good st' n ∧ Moves st st' (only s (if got then 1 else 0)) (only s 0)
        ∧ (got = false → Refused st s false) := by
      obtain ⟨st', got, h1, h2, h3, h4⟩ := hread
      exact ⟨st', got, h1, h2, h3, fun h => .inl (h4 h)⟩
    cases hsync : st.isSync s with
    | true =>
      simp only [borrowEv]
      exact finish hread'
    | false =>
      cases how : st.owner s with
      | none =>
        simp only [borrowEv]
        apply finish
        obtain ⟨c', g, h1, h2, h3, h4, ⟨rfl, h5, h6⟩ | ⟨rfl, h5, h6⟩⟩ := cell_exclusiveRead (hg.inv s) (hg.room s)
        · obtain ⟨ha, hgood⟩ := act_of hg (by omega) h1 (.inl rfl) h2 (.inl hp)
          exact ⟨_, _, ha, hgood, moves_set (by simp [h5]) (by omega) h3, by simp⟩
        · obtain ⟨ha, hgood⟩ := act_of hg (by omega) h1 (.inr rfl) h2 (.inl hp)
          exact ⟨_, _, ha, hgood, moves_set (by simp [h5]) (by omega) h3, fun _ => .inr (.inl ⟨.inr hsync, h6⟩)⟩
      | some t =>
        by_cases ht : t = st.me
        · simp only [borrowEv, ht, ne_eq, not_true_eq_false, if_false]
          exact finish hread'
        · simp only [borrowEv, ne_eq, ht, not_false_eq_true, if_true]
          exact ⟨st, false, rfl, hg.mono (by omega), by simpa using same, fun h => (by cases h),
            fun _ => .inr (.inr ⟨.inr hsync, t, how, ht⟩)⟩
  | true =>
    simp only [if_true]
    have hwrite : ∃ st' got, st.act s .write = .ok (st', got) ∧ Good st' n
        ∧ Moves st st' (only s (if got && !true then 1 else 0)) (only s (if got && true then 1 else 0))
        ∧ (got = true → True → (st.cell s).reborrowed = 0) ∧ (got = false → Refused st s true) := by
      obtain ⟨c', g, h1, h2, h3, h4, ⟨rfl, h5, h6⟩ | ⟨rfl, h5, h6⟩⟩ := cell_write (hg.inv s) (hg.room s)
      · obtain ⟨ha, hgood⟩ := act_of hg (by omega) h1 (.inl rfl) h2 (.inl hp)
        refine ⟨_, _, ha, hgood, moves_set (by simp [h3]) (by simp [h5]) h4, fun _ _ => ?_, by simp⟩
        unfold Cell.guards at h6
        omega
      · obtain ⟨ha, hgood⟩ := act_of hg (by omega) h1 (.inr rfl) h2 (.inl hp)
        exact ⟨_, _, ha, hgood, moves_set (by simp [h3]) (by simp [h5]) h4, by simp, fun _ => .inr (.inl ⟨.inl rfl, h6⟩)⟩
    cases how : st.owner s with
    | none => simp only [borrowMutEv]; exact hwrite
    | some t =>
      by_cases ht : t = st.me
      · simp only [borrowMutEv, ht, ne_eq, not_true_eq_false, if_false]
        exact hwrite
      · simp only [borrowMutEv, ne_eq, ht, not_false_eq_true, if_true]
        exact ⟨st, false, rfl, hg.mono (by omega), by simpa using same, fun h => (by cases h),
          fun _ => .inr (.inr ⟨.inl rfl, t, how, ht⟩)⟩

theorem create_spec {st : Cells} {n : Nat} (s : Nat) (hg : Good st n) :
    Good (st.create s) n ∧ Moves st (st.create s) (fun _ => 0) (fun _ => 0) ∧ (st.create s).present s = true := by
  unfold Cells.create
  cases hp : st.present s with
  | true => exact ⟨hg, Moves.refl st, hp⟩
  | false =>
    have hc : (fun k => if k = s then Cell.new else st.cell k) = st.cell := by
      funext k
      by_cases hk : k = s
      · subst hk; rw [if_pos rfl, hg.ok.absent k hp]
      · rw [if_neg hk]
    simp only [Bool.false_eq_true, if_false]
    rw [hc]
    refine ⟨⟨⟨hg.ok.reach, fun k hk => ?_, ?_⟩, hg.room⟩, ⟨fun k => by simp, fun k => by simp, fun _ => rfl, rfl, rfl, rfl, ?_⟩, ?_⟩
    · simp only [Bool.or_eq_false_iff] at hk
      exact hg.ok.absent k hk.2
    · simp [hg.ok.base.1, hg.ok.base.2]
    · intro k hk
      simp [hk]
    · simp


/-- The storages of the view exist, and those held exclusively are not reborrowed. -/
def Clean (st : Cells) (v : View) : Prop :=
  ∀ s, (v.exclusiveOn s ≠ 0 → (st.cell s).reborrowed = 0) ∧ (v.sharedOn s + v.exclusiveOn s ≠ 0 → st.present s = true)

def CleanAll (st : Cells) (vs : List View) : Prop :=
  ∀ s, (View.exclusiveOnAll s vs ≠ 0 → (st.cell s).reborrowed = 0)
    ∧ (View.sharedOnAll s vs + View.exclusiveOnAll s vs ≠ 0 → st.present s = true)

theorem Clean.moves {st st' : Cells} {v : View} {f g : Nat → Int} (h : Clean st v) (hm : Moves st st' f g) : Clean st' v :=
  fun s => ⟨fun hx => by rw [hm.reborrowed s]; exact (h s).1 hx, fun hx => hm.setup.present s ((h s).2 hx)⟩

theorem CleanAll.moves {st st' : Cells} {v : List View} {f g : Nat → Int} (h : CleanAll st v) (hm : Moves st st' f g) :
    CleanAll st' v :=
  fun s => ⟨fun hx => by rw [hm.reborrowed s]; exact (h s).1 hx, fun hx => hm.setup.present s ((h s).2 hx)⟩

mutual
theorem dropView_spec (v : View) {st : Cells} {n : Nat} (hg : Good st n) (hc : Clean st v)
    (hs : ∀ s, v.sharedOn s ≤ (st.cell s).shared ∧ v.exclusiveOn s ≤ (st.cell s).exclusive) :
    ∃ st', st.dropView v = .ok st' ∧ Good st' n ∧ Moves st st' (fun s => -(v.sharedOn s : Int)) (fun s => -(v.exclusiveOn s : Int)) := by
  match v with
  | .unit => exact ⟨st, by rw [Cells.dropView], hg, (Moves.refl st).congr (fun _ => by simp [View.sharedOn]) (fun _ => by simp [View.exclusiveOn])⟩
  | .opt none => exact ⟨st, by rw [Cells.dropView], hg, (Moves.refl st).congr (fun _ => by simp [View.sharedOn]) (fun _ => by simp [View.exclusiveOn])⟩
  | .opt (some v) =>
    obtain ⟨st', h1, h2, h3⟩ := dropView_spec v hg (fun s => by have := hc s; simpa only [View.sharedOn, View.exclusiveOn] using this)
      (fun s => by have := hs s; simpa only [View.sharedOn, View.exclusiveOn] using this)
    refine ⟨st', by rw [Cells.dropView]; exact h1, h2, h3.congr (fun _ => by simp only [View.sharedOn]) (fun _ => by simp only [View.exclusiveOn])⟩
  | .tuple vs =>
    obtain ⟨st', h1, h2, h3⟩ := dropViews_spec vs hg (fun s => by have := hc s; simpa only [View.sharedOn, View.exclusiveOn] using this)
      (fun s => by have := hs s; simpa only [View.sharedOn, View.exclusiveOn] using this)
    refine ⟨st', by rw [Cells.dropView]; exact h1, h2, h3.congr (fun _ => by simp only [View.sharedOn]) (fun _ => by simp only [View.exclusiveOn])⟩
  | .view t x all =>
    have hc0 := hc t
    have hs0 := hs t
    have hsa := hs allCell
    simp only [View.sharedOn, View.exclusiveOn] at hc0 hs0 hsa
    obtain ⟨st1, h1, h2, h3⟩ := dropAll_spec all hg (fun ha => by
      subst ha
      simp only [and_self, if_true] at hsa
      omega)
    have m1 := h3.shared t
    have m2 := h3.exclusive t
    have m3 := h3.reborrowed t
    obtain ⟨st2, h4, h5, h6⟩ := dropGuard_spec t x h2 (by
        apply h3.setup.present
        apply hc0.2
        cases x <;> simp)
      (fun hx => by
        subst hx
        simp only [true_and, and_true, if_true] at hs0 m1
        by_cases ht : t = allCell
        · subst ht
          cases all <;> simp [only] at hs0 m1 <;> omega
        · have : only allCell (-1) t = 0 := by simp [only, ht]
          cases all <;> simp [ht, this] at hs0 m1 <;> omega)
      (fun hx => by
        subst hx
        simp only [true_and, if_true] at hs0 hc0 m2
        refine ⟨by omega, ?_⟩
        rw [m3]
        exact hc0.1 (by simp))
    refine ⟨st2, ?_, h5, (h3.trans h6).congr (fun s => ?_) (fun s => ?_)⟩
    · rw [Cells.dropView, h1]
      exact h4
    · simp only [View.sharedOn]
      unfold only
      rcases Decidable.em (s = t) with rfl | h7 <;> by_cases h8 : s = allCell <;> cases x <;> cases all <;> simp [*] <;> split <;> simp
    · simp only [View.exclusiveOn]
      unfold only
      cases x <;> cases all <;> by_cases h7 : s = t <;> simp [h7]
theorem dropViews_spec (vs : List View) {st : Cells} {n : Nat} (hg : Good st n) (hc : CleanAll st vs)
    (hs : ∀ s, View.sharedOnAll s vs ≤ (st.cell s).shared ∧ View.exclusiveOnAll s vs ≤ (st.cell s).exclusive) :
    ∃ st', st.dropViews vs = .ok st' ∧ Good st' n
      ∧ Moves st st' (fun s => -(View.sharedOnAll s vs : Int)) (fun s => -(View.exclusiveOnAll s vs : Int)) := by
  match vs with
  | [] => exact ⟨st, by rw [Cells.dropViews], hg, (Moves.refl st).congr (fun _ => by simp [View.sharedOnAll]) (fun _ => by simp [View.exclusiveOnAll])⟩
  | v :: vs =>
    simp only [View.sharedOnAll, View.exclusiveOnAll] at hs
    have hc' : Clean st v ∧ CleanAll st vs := by
      constructor
      all_goals
        intro s
        have := hc s
        simp only [View.sharedOnAll, View.exclusiveOnAll] at this
        exact ⟨fun h => this.1 (by omega), fun h => this.2 (by omega)⟩
    obtain ⟨st1, h1, h2, h3⟩ := dropView_spec v hg hc'.1 (fun s => by have := hs s; omega)
    obtain ⟨st2, h4, h5, h6⟩ := dropViews_spec vs h2 (hc'.2.moves h3) (fun s => by
      have := hs s
      have := h3.shared s
      have := h3.exclusive s
      omega)
    refine ⟨st2, ?_, h5, (h3.trans h6).congr (fun s => ?_) (fun s => ?_)⟩
    · rw [Cells.dropViews, h1]
      exact h4
    · simp only [View.sharedOnAll]; omega
    · simp only [View.exclusiveOnAll]; omega
end

/-- The guards of an optional view. -/
def heldS : Option View → Nat → Int
  | none, _ => 0
  | some v, s => v.sharedOn s
def heldX : Option View → Nat → Int
  | none, _ => 0
  | some v, s => v.exclusiveOn s
def heldAllS : Option (List View) → Nat → Int
  | none, _ => 0
  | some v, s => View.sharedOnAll s v
def heldAllX : Option (List View) → Nat → Int
  | none, _ => 0
  | some v, s => View.exclusiveOnAll s v
def allD (all : Bool) (s : Nat) : Int := if all = true ∧ s = allCell then 1 else 0

theorem borrowView_spec {st : Cells} {n : Nat} (s : Nat) (x create trackOk all : Bool) (hg : Good st (n + 1))
    (hs : all = true → (st.cell allCell).shared ≠ 0) :
    ∃ st' o, st.borrowView s x create trackOk all = .ok (st', o) ∧ Good st' n
      ∧ Moves st st' (fun k => heldS o k - allD all k) (heldX o)
      ∧ (∀ v, o = some v → v = .view s x all ∧ Clean st' v) := by
  have hcreate : ∃ st0, (if create then st.create s else st) = st0 ∧ Good st0 (n + 1) ∧ Moves st st0 (fun _ => 0) (fun _ => 0) := by
    cases create with
    | true => obtain ⟨h1, h2, _⟩ := create_spec s hg; exact ⟨_, rfl, h1, h2⟩
    | false => exact ⟨_, rfl, hg, Moves.refl st⟩
  obtain ⟨st0, h0, hg0, hm0⟩ := hcreate
  unfold Cells.borrowView
  rw [h0]
  dsimp only
  have hs0 : all = true → (st0.cell allCell).shared ≠ 0 := by
    intro ha
    have := hm0.shared allCell
    have := hs ha
    omega
  cases hp : st0.present s with
  | false =>
    obtain ⟨st1, h1, h2, h3⟩ := dropAll_spec all hg0 hs0
    refine ⟨st1, none, ?_, h2.mono (by omega), (hm0.trans h3).congr (fun k => ?_) (fun k => ?_), fun v h => by cases h⟩
    · simp only [if_true]
      rw [h1]
      rfl
    · simp only [heldS, allD]
      cases all <;> by_cases hk : k = allCell <;> simp [only, hk]
    · simp [heldX]
  | true =>
    simp only [Bool.true_eq_false, if_false]
    obtain ⟨st1, got, h1, h2, h3, h4, _⟩ := guard_spec s x hg0 hp
    rw [h1]
    have hs1 : all = true → (st1.cell allCell).shared ≠ 0 := by
      intro ha
      have := h3.shared allCell
      have := hs0 ha
      have : (0 : Int) ≤ only s (if got && !x then 1 else 0) allCell := by
        unfold only
        split
        · split <;> simp
        · simp
      omega
    cases got with
    | false =>
      obtain ⟨st2, h5, h6, h7⟩ := dropAll_spec all h2 hs1
      refine ⟨st2, none, ?_, h6, ((hm0.trans h3).trans h7).congr (fun k => ?_) (fun k => ?_), fun v h => by cases h⟩
      · simp only [Except.bind, if_true, h5]
        rfl
      · simp only [heldS, allD]
        cases all <;> by_cases hk : k = allCell <;> simp [only, hk]
      · simp [heldX, only]
    | true =>
      cases trackOk with
      | false =>
        obtain ⟨st2, h5, h6, h7⟩ := dropGuard_spec s x h2 (h3.setup.present s hp)
          (fun hx => by
            subst hx
            have := h3.shared s
            simp [only] at this
            omega)
          (fun hx => by
            subst hx
            have := h3.exclusive s
            have hr := h3.reborrowed s
            simp [only] at this
            exact ⟨by omega, hr ▸ h4 rfl rfl⟩)
        have hs2 : all = true → (st2.cell allCell).shared ≠ 0 := by
          intro ha
          have := h3.shared allCell
          have := h7.shared allCell
          have := hs0 ha
          have : only s (if true && !x then 1 else 0) allCell + only s (if x = true then 0 else -1) allCell = 0 := by
            cases x <;> by_cases hk : allCell = s <;> simp [only, hk]
          omega
        obtain ⟨st3, h8, h9, h10⟩ := dropAll_spec all h6 hs2
        refine ⟨st3, none, ?_, h9, (((hm0.trans h3).trans h7).trans h10).congr (fun k => ?_) (fun k => ?_), fun v h => by cases h⟩
        · simp only [Except.bind, if_true, Bool.true_eq_false, if_false, h5, h8]
          rfl
        · simp only [heldS, allD]
          rcases Decidable.em (k = s) with rfl | hk' <;> by_cases hk : k = allCell <;> cases all <;> cases x <;> simp [only, *] <;> split <;> simp
        · simp only [heldX]
          by_cases hk' : k = s <;> cases all <;> cases x <;> simp [only, hk']
      | true =>
        refine ⟨st1, some (.view s x all), ?_, h2, (hm0.trans h3).congr (fun k => ?_) (fun k => ?_), fun v h => ?_⟩
        · simp only [Except.bind, Bool.true_eq_false, if_false]
        · simp only [heldS, allD, View.sharedOn]
          rcases Decidable.em (k = s) with rfl | hk' <;> by_cases hk : k = allCell <;> cases all <;> cases x <;> simp [only, *] <;> split <;> simp
        · simp only [heldX, View.exclusiveOn]
          by_cases hk' : k = s <;> cases all <;> cases x <;> simp [only, hk']
        · cases h
          refine ⟨rfl, fun k => ⟨fun hx => ?_, fun hx => ?_⟩⟩
          · simp only [View.exclusiveOn] at hx
            have hk : k = s ∧ x = true := Classical.byContradiction fun hn => hx (by rw [if_neg hn])
            obtain ⟨rfl, rfl⟩ := hk
            rw [h3.reborrowed k]
            exact h4 rfl rfl
          · simp only [View.sharedOn, View.exclusiveOn] at hx
            by_cases hk : k = s
            · subst hk
              exact h3.setup.present k hp
            · simp only [hk, false_and, if_false] at hx
              have hk : k = allCell ∧ all = true := Classical.byContradiction fun hn => hx (by rw [if_neg hn])
              obtain ⟨rfl, _⟩ := hk
              exact h2.ok.base.1

theorem answers_tuple {all : Bool} {rs : List Req} {v : View} (h : Answers all (.tuple rs) v) : ∃ vs, v = .tuple vs := by
  cases h <;> exact ⟨_, rfl⟩

mutual
theorem borrow_spec (r : Req) {st : Cells} {n : Nat} (all : Bool) (hg : Good st (n + r.cost))
    (hs : all = true → (st.cell allCell).shared ≠ 0) :
    ∃ st' o, st.borrow all r = .ok (st', o) ∧ Good st' n
      ∧ Moves st st' (fun k => heldS o k - allD all k) (heldX o)
      ∧ (∀ v, o = some v → Answers all r v ∧ Clean st' v) := by
  match r with
  | .unit =>
    obtain ⟨st1, h1, h2, h3⟩ := dropAll_spec all hg hs
    refine ⟨st1, some .unit, ?_, h2.mono (by omega), h3.congr (fun k => ?_) (fun k => ?_), fun v h => ?_⟩
    · rw [Cells.borrow, h1]
      rfl
    · simp only [heldS, allD, View.sharedOn]
      cases all <;> by_cases hk : k = allCell <;> simp [only, hk]
    · simp [heldX, View.exclusiveOn]
    · cases h
      exact ⟨.unit, fun s => ⟨fun h => by simp [View.exclusiveOn] at h, fun h => by simp [View.exclusiveOn, View.sharedOn] at h⟩⟩
  | .view s x create trackOk =>
    obtain ⟨st', o, h1, h2, h3, h4⟩ := borrowView_spec (n := n) s x create trackOk all (by simpa only [Req.cost] using hg) hs
    refine ⟨st', o, by rw [Cells.borrow]; exact h1, h2, h3, fun v hv => ?_⟩
    obtain ⟨rfl, hc⟩ := h4 v hv
    exact ⟨.view _ _ _ _, hc⟩
  | .opt r =>
    obtain ⟨st', o, h1, h2, h3, h4⟩ := borrow_spec r (n := n) all (by simpa only [Req.cost] using hg) hs
    refine ⟨st', some (.opt o), ?_, h2, h3.congr (fun k => ?_) (fun k => ?_), fun v hv => ?_⟩
    · rw [Cells.borrow, h1]
      rfl
    · cases o <;> simp [heldS, View.sharedOn]
    · cases o <;> simp [heldX, View.exclusiveOn]
    · cases hv
      cases o with
      | none =>
        exact ⟨.optNone r, fun s => ⟨fun h => by simp [View.exclusiveOn] at h, fun h => by simp [View.exclusiveOn, View.sharedOn] at h⟩⟩
      | some v =>
        obtain ⟨ha, hc⟩ := h4 v rfl
        exact ⟨.optSome ha, fun s => by have := hc s; simpa only [View.sharedOn, View.exclusiveOn] using this⟩
  | .tuple rs =>
    obtain ⟨st1, o, h1, h2, h3, h4⟩ := borrowEach_spec rs (n := n) all (by simpa only [Req.cost] using hg) hs
    have hs1 : all = true → (st1.cell allCell).shared ≠ 0 := by
      intro ha
      have := h3.shared allCell
      have := hs ha
      have : 0 ≤ heldAllS o allCell := by cases o <;> simp [heldAllS]
      omega
    obtain ⟨st2, h5, h6, h7⟩ := dropAll_spec all h2 hs1
    refine ⟨st2, o.map .tuple, ?_, h6, (h3.trans h7).congr (fun k => ?_) (fun k => ?_), fun v hv => ?_⟩
    · rw [Cells.borrow, h1]
      show ((st1.dropAll all).map fun x => (x, o.map View.tuple)) = _
      rw [h5]
      rfl
    · have : heldS (o.map .tuple) k = heldAllS o k := by cases o <;> simp [heldS, heldAllS, View.sharedOn]
      rw [this]
      simp only [allD]
      cases all <;> by_cases hk : k = allCell <;> simp [only, hk] <;> omega
    · have : heldX (o.map .tuple) k = heldAllX o k := by cases o <;> simp [heldX, heldAllX, View.exclusiveOn]
      rw [this]
      simp
    · cases o with
      | none => cases hv
      | some vs =>
        cases hv
        obtain ⟨ha, hc⟩ := h4 vs rfl
        refine ⟨ha, Clean.moves (fun s => ?_) h7⟩
        have := hc s
        simpa only [View.sharedOn, View.exclusiveOn] using this
theorem borrowEach_spec (rs : List Req) {st : Cells} {n : Nat} (all : Bool) (hg : Good st (n + Req.costAll rs))
    (hs : all = true → (st.cell allCell).shared ≠ 0) :
    ∃ st' o, st.borrowEach all rs = .ok (st', o) ∧ Good st' n
      ∧ Moves st st' (heldAllS o) (heldAllX o)
      ∧ (∀ vs, o = some vs → Answers all (.tuple rs) (.tuple vs) ∧ CleanAll st' vs) := by
  match rs with
  | [] =>
    refine ⟨st, some [], by rw [Cells.borrowEach], hg.mono (by omega), (Moves.refl st).congr (fun _ => by simp [heldAllS, View.sharedOnAll])
      (fun _ => by simp [heldAllX, View.exclusiveOnAll]), fun v h => ?_⟩
    cases h
    exact ⟨.tupleNil, fun s => ⟨fun h => by simp [View.exclusiveOnAll] at h, fun h => by simp [View.exclusiveOnAll, View.sharedOnAll] at h⟩⟩
  | r :: rs =>
    simp only [Req.costAll] at hg
    obtain ⟨st1, h1, h2, h3⟩ := cloneAll_spec (n := n + Req.costAll rs + r.cost) all (hg.mono (by omega)) hs
    have hs1 : all = true → (st1.cell allCell).shared ≠ 0 ∧ (st1.cell allCell).shared ≠ 1 := by
      intro ha
      have := h3.shared allCell
      have := hs ha
      subst ha
      simp [only] at this
      have e := h3.shared allCell
      simp [only] at e
      omega
    obtain ⟨st2, o, h4, h5, h6, h7⟩ := borrow_spec r (n := n + Req.costAll rs) all h2 (fun ha => (hs1 ha).1)
    cases o with
    | none =>
      refine ⟨st2, none, ?_, h5.mono (by omega), (h3.trans h6).congr (fun k => ?_) (fun k => ?_), fun v h => by cases h⟩
      · rw [Cells.borrowEach, h1]
        show ((st1.borrow all r).bind _) = _
        rw [h4]
        rfl
      · simp only [heldS, heldAllS, allD]
        cases all <;> by_cases hk : k = allCell <;> simp [only, hk]
      · simp [heldX, heldAllX]
    | some v =>
      obtain ⟨ha, hc⟩ := h7 v rfl
      have hs2 : all = true → (st2.cell allCell).shared ≠ 0 := by
        intro ha
        have := h6.shared allCell
        have := hs1 ha
        subst ha
        simp only [heldS, allD, and_self, if_true] at *
        omega
      obtain ⟨st3, o, h8, h9, h10, h11⟩ := borrowEach_spec rs (n := n) all h5 hs2
      cases o with
      | none =>
        have hle : ∀ s, v.sharedOn s ≤ (st3.cell s).shared ∧ v.exclusiveOn s ≤ (st3.cell s).exclusive := by
          intro s
          have e1 := h3.shared s
          have e2 := h6.shared s
          have e3 := h10.shared s
          have x1 := h3.exclusive s
          have x2 := h6.exclusive s
          have x3 := h10.exclusive s
          simp only [heldS, heldAllS, heldX, heldAllX, allD] at *
          refine ⟨?_, by omega⟩
          cases all with
          | false => simp at e1 e2; omega
          | true =>
            by_cases hk : s = allCell
            · have := hs1 rfl
              simp [hk, only] at *
              omega
            · simp [hk, only] at e1 e2
              omega
        obtain ⟨st4, h12, h13, h14⟩ := dropView_spec v h9 (hc.moves h10) hle
        refine ⟨st4, none, ?_, h13, (((h3.trans h6).trans h10).trans h14).congr (fun k => ?_) (fun k => ?_), fun v h => by cases h⟩
        · rw [Cells.borrowEach, h1]
          show ((st1.borrow all r).bind _) = _
          rw [h4]
          show ((st2.borrowEach all rs).bind _) = _
          rw [h8]
          show ((st3.dropView v).map fun x => (x, none)) = _
          rw [h12]
          rfl
        · simp only [heldS, heldAllS, allD]
          cases all <;> by_cases hk : k = allCell <;> simp [only, hk] <;> omega
        · simp [heldX, heldAllX]
          omega
      | some vs =>
        obtain ⟨ha', hc'⟩ := h11 vs rfl
        refine ⟨st3, some (v :: vs), ?_, h9, ((h3.trans h6).trans h10).congr (fun k => ?_) (fun k => ?_), fun v' h => ?_⟩
        · rw [Cells.borrowEach, h1]
          show ((st1.borrow all r).bind _) = _
          rw [h4]
          show ((st2.borrowEach all rs).bind _) = _
          rw [h8]
          rfl
        · simp only [heldS, heldAllS, allD, View.sharedOnAll]
          cases all <;> by_cases hk : k = allCell <;> simp [only, hk] <;> omega
        · simp [heldX, heldAllX, View.exclusiveOnAll]
        · cases h
          refine ⟨.tupleCons ha ha', fun s => ?_⟩
          have c1 := (hc.moves h10) s
          have c2 := hc' s
          simp only [View.sharedOnAll, View.exclusiveOnAll]
          constructor
          · intro h
            by_cases h0 : v.exclusiveOn s = 0
            · exact c2.1 (by omega)
            · exact c1.1 h0
          · intro h
            by_cases h0 : v.sharedOn s + v.exclusiveOn s = 0
            · exact c2.2 (by omega)
            · exact c1.2 h0
end

theorem worldBorrow_spec (r : WReq) {st : Cells} {n : Nat} (hg : Good st (n + r.cost)) :
    ∃ st' o, st.worldBorrow r = .ok (st', o) ∧ Good st' n ∧ Moves st st' (heldS o) (heldX o)
      ∧ (∀ v, o = some v → WAnswers r v ∧ Clean st' v) := by
  match r with
  | .views r =>
    simp only [WReq.cost] at hg
    obtain ⟨st1, got, h1, h2, h3, h4, _⟩ := guard_spec (n := n + r.cost) allCell false hg hg.ok.base.1
    unfold Cells.worldBorrow
    rw [h1]
    cases got with
    | false =>
      exact ⟨st1, none, by simp [Except.bind], h2.mono (by omega), h3.congr (fun k => by simp [heldS, only]) (fun k => by simp [heldX, only]),
        fun v h => by cases h⟩
    | true =>
      have e := h3.shared
      obtain ⟨st2, o, h5, h6, h7, h8⟩ := borrow_spec r (n := n) true h2 (fun _ => by
        have := e allCell
        simp [only] at this
        omega)
      refine ⟨st2, o, ?_, h6, (h3.trans h7).congr (fun k => ?_) (fun k => ?_), fun v hv => ?_⟩
      · simp only [Except.bind, Bool.true_eq_false, if_false]
        exact h5
      · by_cases hk : k = allCell <;> simp [only, allD, hk] <;> omega
      · simp [only]
      · exact ⟨.views (h8 v hv).1, (h8 v hv).2⟩
  | .allStorages x =>
    simp only [WReq.cost] at hg
    obtain ⟨st1, got, h1, h2, h3, h4, _⟩ := guard_spec (n := n) allCell x hg hg.ok.base.1
    simp only [Cells.worldBorrow, h1]
    cases got with
    | false =>
      exact ⟨st1, none, rfl, h2, h3.congr (fun k => by simp [heldS, only]) (fun k => by simp [heldX, only]),
        fun v h => by cases h⟩
    | true =>
      refine ⟨st1, some (.view allCell x false), rfl, h2, h3.congr (fun k => ?_) (fun k => ?_), fun v hv => ?_⟩
      · by_cases hk : k = allCell <;> cases x <;> simp [only, heldS, View.sharedOn, hk]
      · by_cases hk : k = allCell <;> cases x <;> simp [only, heldX, View.exclusiveOn, hk]
      · cases hv
        refine ⟨.allStorages x, fun s => ⟨fun hx => ?_, fun hx => ?_⟩⟩
        · simp only [View.exclusiveOn] at hx
          have hk : s = allCell ∧ x = true := Classical.byContradiction fun hn => hx (by rw [if_neg hn])
          obtain ⟨rfl, rfl⟩ := hk
          rw [h3.reborrowed allCell]
          exact h4 rfl rfl
        · by_cases hs : s = allCell
          · rw [hs]; exact h2.ok.base.1
          · simp [View.sharedOn, View.exclusiveOn, hs] at hx

theorem params_spec (rs : List WReq) {st : Cells} {n : Nat} (hg : Good st (n + (rs.map WReq.cost).sum)) :
    ∃ st' o, st.params rs = .ok (st', o) ∧ Good st' n ∧ Moves st st' (heldAllS o) (heldAllX o)
      ∧ (∀ vs, o = some vs → WAnswersAll rs vs ∧ CleanAll st' vs) := by
  induction rs generalizing st n with
  | nil =>
    refine ⟨st, some [], rfl, hg.mono (by omega), (Moves.refl st).congr (fun _ => by simp [heldAllS, View.sharedOnAll])
      (fun _ => by simp [heldAllX, View.exclusiveOnAll]), fun v h => ?_⟩
    cases h
    exact ⟨.nil, fun s => ⟨fun h => by simp [View.exclusiveOnAll] at h, fun h => by simp [View.exclusiveOnAll, View.sharedOnAll] at h⟩⟩
  | cons r rs ih =>
    rw [List.map_cons, List.sum_cons] at hg
    obtain ⟨st1, o, h1, h2, h3, h4⟩ := worldBorrow_spec r (n := n + (rs.map WReq.cost).sum) (hg.mono (by omega))
    cases o with
    | none =>
      exact ⟨st1, none, by rw [Cells.params, h1]; rfl, h2.mono (by omega), h3.congr (fun k => by simp [heldS, heldAllS])
        (fun k => by simp [heldX, heldAllX]), fun v h => by cases h⟩
    | some v =>
      obtain ⟨ha, hc⟩ := h4 v rfl
      obtain ⟨st2, o, h5, h6, h7, h8⟩ := ih (n := n) h2
      cases o with
      | none =>
        obtain ⟨st3, h9, h10, h11⟩ := dropView_spec v h6 (hc.moves h7) (fun s => by
          have := h3.shared s
          have := h3.exclusive s
          have := h7.shared s
          have := h7.exclusive s
          simp only [heldS, heldX, heldAllS, heldAllX] at *
          omega)
        refine ⟨st3, none, ?_, h10, ((h3.trans h7).trans h11).congr (fun k => ?_) (fun k => ?_), fun v h => by cases h⟩
        · rw [Cells.params, h1]
          show ((st1.params rs).bind _) = _
          rw [h5]
          show ((st2.dropView v).map fun x => (x, none)) = _
          rw [h9]
          rfl
        · simp only [heldS, heldAllS]; omega
        · simp only [heldX, heldAllX]; omega
      | some vs =>
        obtain ⟨ha', hc'⟩ := h8 vs rfl
        refine ⟨st2, some (v :: vs), ?_, h6, (h3.trans h7).congr (fun k => ?_) (fun k => ?_), fun v' h => ?_⟩
        · rw [Cells.params, h1]
          show ((st1.params rs).bind _) = _
          rw [h5]
          rfl
        · simp only [heldS, heldAllS, View.sharedOnAll]; omega
        · simp only [heldX, heldAllX, View.exclusiveOnAll]; omega
        · cases h
          refine ⟨.cons ha ha', fun s => ?_⟩
          have c1 := (hc.moves h7) s
          have c2 := hc' s
          simp only [View.sharedOnAll, View.exclusiveOnAll]
          constructor
          · intro h
            by_cases h0 : v.exclusiveOn s = 0
            · exact c2.1 (by omega)
            · exact c1.1 h0
          · intro h
            by_cases h0 : v.sharedOn s + v.exclusiveOn s = 0
            · exact c2.2 (by omega)
            · exact c1.2 h0

theorem Good.of {st : Cells} {n : Nat} (h : st.Ok) (hr : st.Room n) : Good st n :=
  ⟨h, fun s => ⟨hr.few, hr.shared s, hr.alive s, hr.failed s⟩⟩

theorem Good.room' {st : Cells} {n : Nat} (h : Good st n) : st.Room n :=
  ⟨(h.room 0).few, fun s => (h.room s).shared, fun s => (h.room s).alive, fun s => (h.room s).failed⟩

end Verif.Borrow
