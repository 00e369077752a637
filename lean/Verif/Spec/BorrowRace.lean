import Verif.Model.BorrowRace
import Verif.Spec.BorrowViews
import Verif.Spec.Schedule

/-!
# Specification of systems borrowing at the same time

What the parameters of a system declare (`src/borrow/borrow_info.rs`), and the systems C57 is about.
-/
namespace Verif.Borrow

open Verif.Sched (TypeInfo WSys)

mutual
/-- The storages a request names, and the mutability. -/
def Req.leaves : Req → List (Nat × Bool)
  | .unit => []
  | .view s exclusive _ _ => [(s, exclusive)]
  | .opt r => r.leaves
  | .tuple rs => Req.leavesAll rs
def Req.leavesAll : List Req → List (Nat × Bool)
  | [] => []
  | r :: rs => r.leaves ++ Req.leavesAll rs
end

/-- The `thread_safe` field: `NonSend` storages have an owner and are `Sync`, `NonSync` ones have no owner and are not `Sync`,
`NonSendSync` ones have an owner and are not `Sync`. -/
def threadSafe (st : Cells) (s : Nat) (exclusive : Bool) : Bool :=
  if exclusive then (st.owner s).isNone else st.isSync s

/-- `src/borrow/borrow_info.rs:73-553`: the views a parameter declares. -/
def WReq.infos (st : Cells) : WReq → List TypeInfo
  | .views r => r.leaves.map fun l => { storage := l.1, exclusive := l.2, threadSafe := threadSafe st l.1 l.2 }
  | .allStorages exclusive => [{ storage := Sched.allStorages, exclusive := exclusive, threadSafe := (st.owner allCell).isNone }]

def WReq.leaves : WReq → List (Nat × Bool)
  | .views r => r.leaves
  | .allStorages _ => []

/-- The storage is `Send` but not `Sync`: shared views of it are exclusive too (`exclusive_read`). -/
def SoleRead (st : Cells) (s : Nat) : Prop := st.isSync s = false ∧ st.owner s = none

mutual
/-- Every view can be made: the storage exists or is created, its tracking is right. -/
def Req.Makes (st : Cells) : Req → Prop
  | .unit => True
  | .view s _ create trackOk => trackOk = true ∧ (create = true ∨ st.present s = true)
  | .opt r => r.Makes st
  | .tuple rs => Req.MakesAll st rs
def Req.MakesAll (st : Cells) : List Req → Prop
  | [] => True
  | r :: rs => r.Makes st ∧ Req.MakesAll st rs
end

/-- The systems C57 is about. -/
structure Plain (st : Cells) (main me : Nat) (rs : List WReq) : Prop where
  /-- each parameter names a storage (not just `()`), see `C57_unit_fails` -/
  named : ∀ r ∈ rs, r.infos st ≠ []
  /-- a `Send` and not `Sync` storage is not viewed twice by a system, see `C57_non_sync_fails` -/
  once : (rs.flatMap WReq.leaves).Pairwise fun a b => a.1 = b.1 → ¬ SoleRead st a.1
  /-- the storages of components and uniques are not `AllStorages` -/
  storage : ∀ r ∈ rs, ∀ l ∈ r.leaves, l.1 ≠ allCell
  /-- systems with a view that is not thread safe run on the main thread, `src/world/run_batches.rs:63-113` -/
  thread : (∃ t ∈ rs.flatMap (WReq.infos st), t.threadSafe = false) → me = main

/-- No view is held, cell 0 is `Sync`, storages that are not `Send` belong to the main thread. -/
structure Idle (st : Cells) (main : Nat) : Prop where
  guards : ∀ s, (st.cell s).guards = 0
  sync : st.isSync allCell = true
  owner : ∀ s t, st.owner s = some t → t = main

/-- A thread about to run a system with these parameters: it takes its views, then drops their guards in any order. -/
def Runs (t : Runner) (rs : List WReq) : Prop :=
  ∃ drops, t.todo = rs.flatMap WReq.acts ++ drops ∧ drops.Perm ((rs.map WReq.whole).flatMap View.drops)

end Verif.Borrow
