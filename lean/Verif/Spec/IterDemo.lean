import Verif.Spec.Iter

/-!
# Concrete storages for the examples about iteration
-/
namespace Verif.IterSpec
open StoSpec TrkSpec Iter

/-- The storage after inserting the components of a list, one per tick. -/
def fill : List (EId × Nat) → Nat → SparseSet Nat → SparseSet Nat
  | [], _, s => s
  | (e, v) :: l, now, s =>
    match s.insert e v now with
    | .ok (_, s) => fill l (now + 1) s
    | .error _ => s

def fillHist : List (EId × Nat) → Nat → List (Event Nat)
  | [], _ => []
  | (e, v) :: l, now => .inserted e v now .inserted :: fillHist l (now + 1)

def setOf (trk : Bool) (l : List (EId × Nat)) : SparseSet Nat := fill l 1 (SparseSet.new trk trk trk trk)

def aL : List (EId × Nat) := [(⟨0, 0⟩, 10), (⟨4, 1⟩, 20), (⟨40, 0⟩, 30)]
def bL : List (EId × Nat) := [(⟨40, 0⟩, 6), (⟨7, 0⟩, 8), (⟨4, 1⟩, 5), (⟨0, 3⟩, 9)]

theorem a_run : Run (SparseSet.new true true true true) (fillHist aL 1) (setOf true aL) :=
  (((Run.nil (s0 := (SparseSet.new true true true true : SparseSet Nat))).snoc
    (Step.insert (e := ⟨0, 0⟩) (v := 10) (now := 1) (by decide) rfl)).snoc
    (Step.insert (e := ⟨4, 1⟩) (v := 20) (now := 2) (by decide) rfl)).snoc
    (Step.insert (e := ⟨40, 0⟩) (v := 30) (now := 3) (by decide) rfl)

theorem b_run : Run (SparseSet.new true true true true) (fillHist bL 1) (setOf true bL) :=
  ((((Run.nil (s0 := (SparseSet.new true true true true : SparseSet Nat))).snoc
    (Step.insert (e := ⟨40, 0⟩) (v := 6) (now := 1) (by decide) rfl)).snoc
    (Step.insert (e := ⟨7, 0⟩) (v := 8) (now := 2) (by decide) rfl)).snoc
    (Step.insert (e := ⟨4, 1⟩) (v := 5) (now := 3) (by decide) rfl)).snoc
    (Step.insert (e := ⟨0, 3⟩) (v := 9) (now := 4) (by decide) rfl)

theorem fillHist_noTakeover : ∀ (l : List (EId × Nat)) (now : Nat), NoTakeover (fillHist l now)
  | [], _ => by intro e v now h; cases h
  | (e, v) :: l, now => by
    intro e' v' now' h
    simp only [fillHist, List.mem_cons, Event.inserted.injEq, reduceCtorEq, and_false, false_or] at h
    exact fillHist_noTakeover l _ _ _ _ h

/-- Views of the two storages. They differ in `current`, by which `demoSt` tells them apart. -/
def aV : Tracking.View Nat := ⟨setOf true aL, 1, 1, 1, 9⟩
def bV : Tracking.View Nat := ⟨setOf true bL, 1, 1, 1, 10⟩
/-- A view of an empty storage. -/
def nV : Tracking.View Nat := ⟨setOf true [], 1, 1, 1, 11⟩
def aW : Win Nat := Win.ofView aV
def bW : Win Nat := Win.ofView bV
def nW : Win Nat := Win.ofView nV
def demoSt (w : Win Nat) : Sto Nat :=
  after (Sto.init true true true true)
    (if w.current = 9 then fillHist aL 1 else if w.current = 10 then fillHist bL 1 else [])

theorem aW_reads : Reads aW (demoSt aW) := ⟨⟨aV, rfl⟩, .ofRun a_run (fillHist_noTakeover _ _)⟩
theorem bW_reads : Reads bW (demoSt bW) := ⟨⟨bV, rfl⟩, .ofRun b_run (fillHist_noTakeover _ _)⟩
theorem nW_reads : Reads nW (demoSt nW) := ⟨⟨nV, rfl⟩, .ofRun Run.nil (fillHist_noTakeover [] 1)⟩

/-- Any rounding; here: round down. -/
def demoR : Rnd := ⟨fun n => n, fun n => n / 2, fun n => n * 2, fun n => n⟩

/-- Build the iterator and run it. -/
def runFold (q : Qry Nat) : Res (List (Out Nat)) :=
  match iter demoR q with
  | .ok it => it.fold
  | .error f => .error f

/-- Build the iterator and use it. -/
def withIter {α : Type} (q : Qry Nat) (f : It Nat → Res α) : Res α :=
  match iter demoR q with
  | .ok it => f it
  | .error f => .error f

end Verif.IterSpec
