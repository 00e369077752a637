import Verif.Props.Iter
import Verif.Props.SparseSet2
import Verif.Props.Tracking
import Verif.Lemmas.TrackingTaken

/-!
# After a takeover

A *takeover* is an insertion for an entity whose index still has the component of an older, dead entity in the storage
(`SparseSet::insert`, third case, `src/sparse_set/mod.rs:290-313`). The stored id becomes the bitwise or of the old and the
new id (`EntityId::copy_index_gen`, `src/entity_id/mod.rs:142-146`), the log of modifications keeps the time of the old
component. These theorems show which properties need the hypothesis `NoTakeover`.
-/
namespace Verif.IterSpec
open StoSpec TrkSpec Iter

/-- The component 10 of `(0, 1)`, then the component 20 of `(0, 2)` in its place. -/
theorem taken_run : Run (SparseSet.new true true true true)
    ([.inserted ⟨0, 1⟩ 10 1 .inserted, .inserted ⟨0, 2⟩ 20 2 .otherComponentOverride] : List (Event Nat))
    (setOf true [(⟨0, 1⟩, 10), (⟨0, 2⟩, 20)]) :=
  ((Run.nil (s0 := (SparseSet.new true true true true : SparseSet Nat))).snoc
    (Step.insert (e := ⟨0, 1⟩) (v := 10) (now := 1) (by decide) rfl)).snoc
    (Step.insert (e := ⟨0, 2⟩) (v := 20) (now := 2) (by decide) rfl)

/-- Components of `(0, 2)` and `(5, 0)`. -/
theorem plain_run : Run (SparseSet.new true true true true) (fillHist [(⟨0, 2⟩, 7), (⟨5, 0⟩, 8)] 1)
    (setOf true [(⟨0, 2⟩, 7), (⟨5, 0⟩, 8)]) :=
  ((Run.nil (s0 := (SparseSet.new true true true true : SparseSet Nat))).snoc
    (Step.insert (e := ⟨0, 2⟩) (v := 7) (now := 1) (by decide) rfl)).snoc
    (Step.insert (e := ⟨5, 0⟩) (v := 8) (now := 2) (by decide) rfl)

def takenV : Tracking.View Nat := ⟨setOf true [(⟨0, 1⟩, 10), (⟨0, 2⟩, 20)], 0, 0, 0, 9⟩
def plainV : Tracking.View Nat := ⟨setOf true [(⟨0, 2⟩, 7), (⟨5, 0⟩, 8)], 0, 0, 0, 9⟩

/-- C29 is false after a takeover: `(0, 2)` has both components, but the loop over both views yields nothing. -/
theorem C29_takeover_fails : (∃ h, Run (SparseSet.new true true true true) h takenV.set) ∧
    (∃ h, Run (SparseSet.new true true true true) h plainV.set) ∧
    takenV.set.get ⟨0, 2⟩ = .ok (some 20) ∧ plainV.set.get ⟨0, 2⟩ = .ok (some 7) ∧
    runFold (.tup [.view (Win.ofView takenV), .view (Win.ofView plainV)]) = .ok [] :=
  ⟨⟨_, taken_run⟩, ⟨_, plain_run⟩, rfl, rfl, rfl⟩

/-- C30 is false after a takeover: the loop over `(&taken, !&plain)` yields the component of `(0, 2)`, which is in both; and
the one over `(&taken, plain.as_optional())` says that it is not in the second. -/
theorem C30_takeover_fails : (∃ h, Run (SparseSet.new true true true true) h takenV.set) ∧
    (∃ h, Run (SparseSet.new true true true true) h plainV.set) ∧
    takenV.set.get ⟨0, 2⟩ = .ok (some 20) ∧ plainV.set.get ⟨0, 2⟩ = .ok (some 7) ∧
    runFold (.tup [.view (Win.ofView takenV), .absent (Win.ofView plainV) false]) = .ok [.tup [.comp 20, .unit]] ∧
    runFold (.tup [.view (Win.ofView takenV), .opt (Win.ofView plainV)]) = .ok [.tup [.comp 20, .maybe none]] :=
  ⟨⟨_, taken_run⟩, ⟨_, plain_run⟩, rfl, rfl, rfl, rfl⟩

/-- C31 and C32 are false after a takeover: the component of `(0, 2)` was inserted in the window of the view, but neither
`taken.inserted()` nor `&taken | &empty` yields it. -/
theorem C32_takeover_fails : (∃ h, Run (SparseSet.new true true true true) h takenV.set) ∧
    takenV.set.get ⟨0, 2⟩ = .ok (some 20) ∧ takenV.isInserted ⟨0, 2⟩ = .ok true ∧
    runFold (.flag .inserted false (Win.ofView takenV)) = .ok [] :=
  ⟨⟨_, taken_run⟩, rfl, rfl, rfl⟩
theorem C31_takeover_fails : (∃ h, Run (SparseSet.new true true true true) h takenV.set) ∧
    takenV.set.get ⟨0, 2⟩ = .ok (some 20) ∧
    runFold (.or (.view (Win.ofView takenV)) (.view nW)) = .ok [] :=
  ⟨⟨_, taken_run⟩, rfl, rfl⟩

/-- C33 is false after a takeover: `with_id` gives the component of `(0, 2)` the id `(0, 3)`. -/
theorem C33_takeover_fails : (∃ h, Run (SparseSet.new true true true true) h takenV.set) ∧
    takenV.set.get ⟨0, 2⟩ = .ok (some 20) ∧ takenV.set.get ⟨0, 3⟩ = .ok none ∧
    withIter (.view (Win.ofView takenV)) It.foldId = .ok [(⟨0, 3⟩, .comp 20)] :=
  ⟨⟨_, taken_run⟩, rfl, rfl, rfl⟩

/-- The component of `(0, 32767)`, then that of `(0, 32768)` in its place. -/
theorem dead_run : Run (SparseSet.new true true true true)
    ([.inserted ⟨0, 32767⟩ 10 1 .inserted, .inserted ⟨0, 32768⟩ 20 2 .otherComponentOverride] : List (Event Nat))
    (setOf true [(⟨0, 32767⟩, 10), (⟨0, 32768⟩, 20)]) :=
  ((Run.nil (s0 := (SparseSet.new true true true true : SparseSet Nat))).snoc
    (Step.insert (e := ⟨0, 32767⟩) (v := 10) (now := 1) (by decide) rfl)).snoc
    (Step.insert (e := ⟨0, 32768⟩) (v := 20) (now := 2) (by decide) rfl)

def deadV : Tracking.View Nat := ⟨setOf true [(⟨0, 32767⟩, 10), (⟨0, 32768⟩, 20)], 0, 0, 0, 9⟩

/-- The components of `(1, 0)` and `(2, 0)`: nothing at index 0, but its page exists. -/
theorem near_run : Run (SparseSet.new true true true true) (fillHist [(⟨1, 0⟩, 7), (⟨2, 0⟩, 8)] 1)
    (setOf true [(⟨1, 0⟩, 7), (⟨2, 0⟩, 8)]) :=
  ((Run.nil (s0 := (SparseSet.new true true true true : SparseSet Nat))).snoc
    (Step.insert (e := ⟨1, 0⟩) (v := 7) (now := 1) (by decide) rfl)).snoc
    (Step.insert (e := ⟨2, 0⟩) (v := 8) (now := 2) (by decide) rfl)
def nearV : Tracking.View Nat := ⟨setOf true [(⟨1, 0⟩, 7), (⟨2, 0⟩, 8)], 0, 0, 0, 9⟩

/-- C29, C34, C35 and C36 are false after a takeover: when the bitwise or of the two generations is 65535, the stored id is the
one of no entity, which the tables of the other storages hold for *nothing here*: the loop takes it for a component and reads
out of bounds, whether it is run as a whole or in the parts of a split. -/
theorem C29_takeover_oob_fails : (∃ h, Run (SparseSet.new true true true true) h deadV.set) ∧
    (∃ h, Run (SparseSet.new true true true true) h nearV.set) ∧
    deadV.set.get ⟨0, 32768⟩ = .ok (some 20) ∧ nearV.set.get ⟨0, 32768⟩ = .ok none ∧
    runFold (.tup [.view (Win.ofView deadV), .view (Win.ofView nearV)]) = .error .oob :=
  ⟨⟨_, dead_run⟩, ⟨_, near_run⟩, rfl, rfl, rfl⟩
theorem C34_takeover_fails : (∃ h, Run (SparseSet.new true true true true) h deadV.set) ∧
    (∃ h, Run (SparseSet.new true true true true) h nearV.set) ∧
    withIter (.tup [.view (Win.ofView deadV), .view (Win.ofView nearV)]) (calls [.front]) = .error .oob :=
  ⟨⟨_, dead_run⟩, ⟨_, near_run⟩, rfl⟩
theorem C35_takeover_fails : (∃ h, Run (SparseSet.new true true true true) h deadV.set) ∧
    (∃ h, Run (SparseSet.new true true true true) h nearV.set) ∧
    withIter (.tup [.view (Win.ofView deadV), .view (Win.ofView nearV)])
      (fun it => runAll ((Splits.node .leaf .leaf).parts it)) = .error .oob :=
  ⟨⟨_, dead_run⟩, ⟨_, near_run⟩, rfl⟩

end Verif.IterSpec

namespace Verif.SparseSet
open StoSpec

/-- C15 for an older entity of the same index: removing through the id of a newer one, which has no component, loses the component
that was left of the older one. -/
theorem C15_older_fails : ∃ (h : List (Event Nat)) (s s' : SparseSet Nat),
    Run (SparseSet.new true true true true) h s ∧ s.get ⟨0, 1⟩ = .ok (some 10) ∧
    s.dynRemove ⟨0, 2⟩ 5 = .ok (none, s') ∧ s'.get ⟨0, 1⟩ = .ok none := by
  have h1 := (Run.nil (s0 := (SparseSet.new true true true true : SparseSet Nat))).snoc
    (Step.insert (e := ⟨0, 1⟩) (v := 10) (now := 1) (by decide) rfl)
  exact ⟨_, _, _, h1, rfl, rfl, rfl⟩

/-- C20 is false after a takeover: the component of `(0, 2)` is drained under the id `(0, 3)`, and logged under it. -/
theorem C20_fails : ∃ (h : List (Event Nat)) (s s' : SparseSet Nat) (dr dr' : Drain Nat),
    Run (SparseSet.new true true true true) h s ∧ s.get ⟨0, 2⟩ = .ok (some 20) ∧ s.get ⟨0, 3⟩ = .ok none ∧
    s.drain 5 = .ok (dr, s') ∧ dr.pull 1 = .ok ([(⟨0, 3⟩, 20)], dr') ∧ s'.removalData = [(⟨0, 3⟩, 5)] :=
  ⟨_, takeover, _, _, _, takeover_run, rfl, rfl, rfl, rfl, rfl⟩

end Verif.SparseSet

namespace Verif.TrkSpec
open StoSpec Tracking

/-- C24 for insertions, after any history, takeovers included: `is_inserted(e)` does not panic and holds exactly when `e` has a
component which it got at a timestamp in the window. -/
theorem C24_inserted_exact {T : Type} {b c d : Bool} {h : List (Event T)} {s : SparseSet T}
    (hr : Run (SparseSet.new true b c d) h s) {e : EId} (he : Valid e) (v : View T) (hv : v.set = s) :
    ∃ i, v.isInserted e = .ok i ∧ (i = true ↔ (∃ x, s.get e = .ok (some x)) ∧
      ∃ t, givenAt h e = some t ∧ InWindow t v.lastInsertion v.current) := by
  obtain ⟨L, hL⟩ := SparseSet.run_abs hr
  obtain ⟨h1, h2⟩ := run_given hr e
  refine ⟨_, (flags_ok hL he.1 v hv).1 h1, ?_⟩
  rw [has_row hL he.1]
  cases hro : rowOf (after (Sto.init true b c d) h) e with
  | none => simp
  | some r =>
    simp only [isWithin_iff, h2 r hro, Option.some.injEq, exists_eq_left']
    exact ⟨fun h => ⟨⟨r, rfl⟩, h⟩, fun h => h.2⟩

/-- The component of `(0, 2)`, in the place of `(0, 1)`'s, was given at time 2. -/
example : givenAt ([.inserted ⟨0, 1⟩ 10 1 .inserted, .inserted ⟨0, 2⟩ 20 2 .otherComponentOverride] : List (Event Nat)) ⟨0, 2⟩ =
    some 2 := by decide
example := C24_inserted_exact IterSpec.taken_run (e := ⟨0, 2⟩) (by decide) IterSpec.takenV rfl

/-- C25 is false after a takeover: the modifications are cleared, then the component of `(0, 0)` is written, then `(0, 1)` gets a
component in its place. It is reported as modified, and was never written. -/
theorem C25_takeover_fails : ∃ (t1 t2 : List (Act Nat)) (w : World Nat),
    Prog (World.init true true true true) (t1 ++ .clearMod 1 :: t2 ++ [.look 3 ⟨0, 1⟩ true true]) w ∧
    NoClear false t2 ∧ (3, none) ∈ starts t2 ∧ writtenBy (t1 ++ t2) ⟨0, 1⟩ = none := by
  have h0 := Prog.nil (w0 := (World.init true true true true : World Nat))
  have h1 := h0.snoc (.start (p := 0) (sys := none) (by decide))
  have h2 := h1.snoc (.call (p := 0) (s := ⟨none, 1⟩) rfl
    (Step.insert (e := ⟨0, 0⟩) (v := 10) (now := 1) (by decide) rfl) rfl (by intro t ht; cases ht; rfl))
  have h3 := h2.snoc (.start (p := 1) (sys := none) (by decide))
  have h4 := h3.snoc (.clearMod (p := 1) (s := ⟨none, 2⟩) rfl)
  have h5 := h4.snoc (.start (p := 2) (sys := none) (by decide))
  have h6 := h5.snoc (.call (p := 2) (s := ⟨none, 3⟩) rfl
    (Step.write (e := ⟨0, 0⟩) (v := 11) (now := 3) (by decide) rfl) rfl (by intro t ht; cases ht; rfl))
  have h7 := h6.snoc (.call (p := 2) (s := ⟨none, 3⟩) rfl
    (Step.insert (e := ⟨0, 1⟩) (v := 12) (now := 3) (by decide) rfl) rfl (by intro t ht; cases ht; rfl))
  have h8 := h7.snoc (.start (p := 3) (sys := none) (by decide))
  have h9 := h8.snoc (.look (p := 3) (e := ⟨0, 1⟩) (s := ⟨none, 4⟩) (ins := true) (mod := true) rfl (by decide) rfl rfl)
  refine ⟨[.start 0 none, .call 0 (.inserted ⟨0, 0⟩ 10 1 .inserted), .start 1 none],
    [.start 2 none, .call 2 (.wrote [(⟨0, 0⟩, 11)] 3), .call 2 (.inserted ⟨0, 1⟩ 12 3 .otherComponentOverride), .start 3 none],
    _, h9, ?_, by decide, by decide⟩
  intro x hx
  simp only [List.mem_cons, List.not_mem_nil, or_false] at hx
  rcases hx with rfl | rfl | rfl | rfl <;> trivial

/-- C64 is false after a takeover: `retain` drops the component of `(0, 2)`, and the view of everything before lists no
deletion. -/
theorem C64_takeover_fails : ∃ (h : List (Event Nat)) (s s' : SparseSet Nat) (calls : List (Call Nat)),
    Run (SparseSet.new true true true true) h s ∧ s.get ⟨0, 2⟩ = .ok (some 20) ∧
    s.retain 5 ((), []) (recordingRef fun _ _ _ => (false, ())) = .ok (((), calls), s') ∧
    s'.get ⟨0, 2⟩ = .ok none ∧ (⟨s', 0, 0, 0, 9⟩ : View Nat).deleted = [] :=
  ⟨_, SparseSet.takeover, _, _, SparseSet.takeover_run, rfl, rfl, rfl, rfl⟩

end Verif.TrkSpec
