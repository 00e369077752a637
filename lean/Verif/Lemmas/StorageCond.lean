import Verif.Model.StorageCond
import Verif.Lemmas.BorrowViews
import Verif.Lemmas.WorldReach
import Verif.Lemmas.WorldUnwind
import Verif.Spec.BorrowRace

/-!
# Lemmas on conditions on storages
-/
namespace Verif.Conds

open Verif.Borrow Verif.Sched

variable {V : Type}

theorem act_write {st : Cells} {s : Nat} (hi : Inv (st.cell s)) (hg : (st.cell s).guards = 0) :
    st.act s .write = .ok (st.set s { st.cell s with word := HIGH, exclusive := (st.cell s).exclusive + 1 }, true) := by
  unfold Cells.act
  rw [step_write hi hg]

theorem set_set (st : Cells) (s : Nat) (c d : Cell) : (st.set s c).set s d = st.set s d := by
  unfold Cells.set
  congr 1
  funext k
  by_cases h : k = s <;> simp [h]

theorem set_same (st : Cells) (s : Nat) : st.set s (st.cell s) = st := by
  unfold Cells.set
  congr 1
  funext k
  by_cases h : k = s <;> simp [h]

theorem cell_ext {c d : Cell} (h1 : c.word = d.word) (h2 : c.shared = d.shared) (h3 : c.reborrowed = d.reborrowed)
    (h4 : c.exclusive = d.exclusive) (h5 : c.undoing = d.undoing) (h6 : c.dying = d.dying) : c = d := by
  cases c; cases d; cases h1; cases h2; cases h3; cases h4; cases h5; cases h6; rfl

/-- Dropping an exclusive guard gives back the free cell. -/
theorem act_dropExclusive {st : Cells} {s : Nat} {c : Cell} (hi : Inv c) (hg : c.guards = 0)
    (hc : st.cell s = { c with word := HIGH, exclusive := c.exclusive + 1 }) :
    st.act s .dropExclusive = .ok (st.set s c, true) := by
  have hw := hi.word_zero.2 hg
  unfold Cell.guards at hg
  unfold Cells.act Cell.step
  rw [hc]
  dsimp only
  rw [if_neg (by omega)]
  dsimp only
  congr 3
  apply cell_ext <;> first | rfl | skip
  exact hw.symm

theorem read_zero : Borrow.read 0 = (1, .guard) := by
  rfl

theorem dropShared_one : Borrow.dropShared 1 = 0 := by
  rfl

/-- A shared guard of a free cell, taken and dropped. -/
theorem shared_round {st : Cells} {s : Nat} (hi : Inv (st.cell s)) (hg : (st.cell s).guards = 0)
    (hm : borrowEv (st.owner s) (st.isSync s) st.me ≠ none) :
    ∃ st', st.guard s false = .ok (st', true) ∧ st'.dropGuard s false = .ok st := by
  have hw := hi.word_zero.2 hg
  unfold Cell.guards at hg
  have key : ∀ e, e = Ev.read ∨ e = Ev.exclusiveRead → ∃ st', st.act s e = .ok (st', true) ∧ st'.dropGuard s false = .ok st := by
    intro e he
    refine ⟨st.set s { st.cell s with word := 1, shared := (st.cell s).shared + 1 }, ?_, ?_⟩
    · unfold Cells.act
      rcases he with rfl | rfl
      · unfold Cell.step
        rw [hw, read_zero]
        rfl
      · rw [step_exclusiveRead hi (by unfold Cell.guards; omega)]
    · unfold Cells.dropGuard Cells.act
      have : (st.set s { st.cell s with word := 1, shared := (st.cell s).shared + 1 }).cell s
          = { st.cell s with word := 1, shared := (st.cell s).shared + 1 } := by
        unfold Cells.set; simp
      rw [this]
      unfold Cell.step
      simp only [Bool.false_eq_true, if_false]
      rw [if_neg (by omega)]
      dsimp only
      rw [dropShared_one, set_set]
      show Except.ok _ = Except.ok st
      congr 1
      have : ({ st.cell s with word := 0, shared := (st.cell s).shared + 1 - 1 } : Cell) = st.cell s := by
        apply cell_ext <;> first | rfl | skip
        exact hw.symm
      rw [this, set_same]
  unfold Cells.guard
  simp only [Bool.false_eq_true, if_false]
  cases hb : borrowEv (st.owner s) (st.isSync s) st.me with
  | none => exact absurd hb hm
  | some e =>
    dsimp only
    apply key
    unfold borrowEv at hb
    split at hb
    · exact .inl (Option.some.inj hb).symm
    · exact .inr (Option.some.inj hb).symm
    · split at hb
      · cases hb
      · exact .inl (Option.some.inj hb).symm

theorem Sid.cell_ne (id : Sid) : id.cell ≠ allCell := by
  cases id with
  | entities => intro h; cases h
  | comp k => show 2 * k + 2 ≠ 0; omega
  | unique k => show 2 * k + 3 ≠ 0; omega

/-- A condition on a storage when nothing is borrowed. -/
theorem eval_idle {c : Ctx V} {main : Nat} (hok : c.cells.Ok) (hidle : Idle c.cells main)
    (hme : (∃ s, c.cells.owner s ≠ none) → c.cells.me = main) (id : Sid) :
    storageEmptyById id c = ({ c with w := c.w.tick }, .ok ((c.isEmpty id).getD true)) := by
  obtain ⟨h0, hr0⟩ := hok.reach allCell
  have hi0 := hr0.inv
  obtain ⟨h1, hr1⟩ := hok.reach id.cell
  have hi1 := hr1.inv
  have hg0 := hidle.guards allCell
  have hg1 := hidle.guards id.cell
  have hown : ∀ s t, c.cells.owner s = some t → t = c.cells.me := by
    intro s t hs
    rw [hidle.owner s t hs, hme ⟨s, by rw [hs]; simp⟩]
  have hmut : borrowMutEv (c.cells.owner allCell) c.cells.me = some .write := by
    unfold borrowMutEv
    cases ho : c.cells.owner allCell with
    | none => rfl
    | some t =>
      dsimp only
      rw [if_neg (by rw [hown _ _ ho]; simp)]
  have hsh : borrowEv (c.cells.owner id.cell) (c.cells.isSync id.cell) c.cells.me ≠ none := by
    unfold borrowEv
    split
    · simp
    · simp
    · rename_i t ho hs
      have := hown _ _ ho
      rw [if_neg (by rw [this]; simp)]
      simp
  have hn : id.cell ≠ allCell := id.cell_ne
  have hbor : c.cells.worldBorrow (.allStorages true) = .ok (c.cells.set allCell
      { c.cells.cell allCell with word := HIGH, exclusive := (c.cells.cell allCell).exclusive + 1 },
      some (.view allCell true false)) := by
    unfold Cells.worldBorrow Cells.guard
    simp only [if_true]
    rw [hmut]
    dsimp only
    rw [act_write hi0 hg0]
    rfl
  have hcid : (c.cells.set allCell
      { c.cells.cell allCell with word := HIGH, exclusive := (c.cells.cell allCell).exclusive + 1 }).cell id.cell
      = c.cells.cell id.cell := by
    unfold Cells.set; dsimp only; rw [if_neg hn]
  obtain ⟨st', hg, hd⟩ := shared_round (st := c.cells.set allCell
    { c.cells.cell allCell with word := HIGH, exclusive := (c.cells.cell allCell).exclusive + 1 }) (s := id.cell)
    (by rw [hcid]; exact hi1) (by rw [hcid]; exact hg1) hsh
  have hdrop : (c.cells.set allCell
      { c.cells.cell allCell with word := HIGH, exclusive := (c.cells.cell allCell).exclusive + 1 }).dropView
      (.view allCell true false) = .ok c.cells := by
    unfold Cells.dropView Cells.dropAll Cells.dropGuard
    simp only [Bool.false_eq_true, if_false, if_true]
    show Except.map _ (Cells.act _ allCell .dropExclusive) = _
    rw [act_dropExclusive (c := c.cells.cell allCell) hi0 hg0 (by unfold Cells.set; simp), set_set, set_same]
    rfl
  have hask : Ctx.ask { c with w := c.w.tick } id (c.cells.set allCell
      { c.cells.cell allCell with word := HIGH, exclusive := (c.cells.cell allCell).exclusive + 1 })
      = .ok (c.cells.set allCell
      { c.cells.cell allCell with word := HIGH, exclusive := (c.cells.cell allCell).exclusive + 1 },
      (c.isEmpty id).getD true) := by
    unfold Ctx.ask
    have : Ctx.isEmpty { c with w := c.w.tick } id = c.isEmpty id := by cases id <;> rfl
    rw [this]
    cases hb : c.isEmpty id with
    | none => rfl
    | some b =>
      dsimp only
      rw [hg]
      simp only [Except.bind, if_true]
      rw [hd]
      rfl
  unfold storageEmptyById
  dsimp only
  rw [hbor]
  dsimp only
  rw [hask]
  dsimp only
  rw [hdrop]

/-- A condition on a storage when a view is held, or on the wrong thread. -/
theorem eval_busy {c : Ctx V} (hok : c.cells.Ok)
    (h : (c.cells.cell allCell).guards ≠ 0 ∨ ∃ t, c.cells.owner allCell = some t ∧ t ≠ c.cells.me) (id : Sid) :
    storageEmptyById id c = ({ c with w := c.w.tick }, .error .refused) := by
  obtain ⟨h0, hr0⟩ := hok.reach allCell
  have hi0 := hr0.inv
  have hbor : c.cells.worldBorrow (.allStorages true) = .ok (c.cells, none) := by
    unfold Cells.worldBorrow Cells.guard
    simp only [if_true]
    unfold borrowMutEv
    have hheld : (c.cells.cell allCell).guards ≠ 0 →
        (c.cells.act allCell .write).map (fun x => (x.1, if x.2 = true then some (View.view allCell true false) else none))
          = .ok (c.cells, none) := by
      intro hg
      unfold Cells.act
      rw [step_write_held hi0 hg]
      dsimp only
      rw [set_same]
      rfl
    cases ho : c.cells.owner allCell with
    | none =>
      rcases h with h | ⟨t, h, _⟩
      · exact hheld h
      · rw [ho] at h; cases h
    | some t =>
      dsimp only
      by_cases ht : t ≠ c.cells.me
      · rw [if_pos ht]; rfl
      · rw [if_neg ht]
        rcases h with h | ⟨t', h, hne⟩
        · exact hheld h
        · rw [ho] at h; cases h; exact absurd hne ht
  unfold storageEmptyById
  dsimp only
  rw [hbor]

/-- A storage is empty when no place has a row. -/
theorem dense_empty {P : Prop} {s : SparseSet V} {a : StoSpec.Sto V} {L : List (SparseSet.Cell V)} (h : SparseSet.Abs P s a L) :
    s.dense.isEmpty = true ↔ ∀ i, a.rows i = none := by
  have hd : s.dense.isEmpty = L.isEmpty := by
    have := congrArg SparseSet.dense h.shape
    rw [this]
    cases L <;> rfl
  rw [hd]
  constructor
  · intro hL i
    rw [List.isEmpty_iff] at hL
    rw [h.rows i, hL]
    rfl
  · intro hall
    cases L with
    | nil => rfl
    | cons x L =>
      have h1 := hall x.id.idx
      rw [h.rows, (SparseSet.cellAt_some h.ok).2 ⟨List.mem_cons_self, rfl⟩] at h1
      cases h1

end Verif.Conds
