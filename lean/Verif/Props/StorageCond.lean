import Verif.Lemmas.StorageCond
import Verif.Props.Running
import Verif.Props.World
import Verif.Props.BorrowRace
import Verif.Props.BorrowViews

/-!
# C75: conditions on storages

`run_if_storage_empty::<T>()`, `run_if_missing_unique::<T>()` and their `skip_if` versions. `c.w.get (stoKey .new t) e` is
`world.get::<&T>(e)` for the component type number `t`, `c.uniques t` the unique of type number `t`.
-/
namespace Verif.Conds

open Verif.Borrow Verif.Sched Verif.World
open EntSpec (Event)
open StoSpec (Valid)

variable {V : Type} {fl : Flags}

/-- Nothing is borrowed, and the condition is evaluated on the thread of the world if the world has a storage bound to it. -/
structure Free (c : Ctx V) (main : Nat) : Prop where
  ok : c.cells.Ok
  idle : Idle c.cells main
  thread : (∃ s, c.cells.owner s ≠ none) → c.cells.me = main

/-- No entity has a `T`. -/
def NoneHas (c : Ctx V) (t : Nat) : Prop := ∀ e, c.w.isAlive e = true → c.w.get (stoKey .new t) e = .ok none

/-- `get_current` is all a condition does to the world. -/
def Ctx.later (c : Ctx V) : Ctx V := { c with w := c.w.tick }

/-- C75: the condition of `run_if_storage_empty::<T>()` holds exactly when no entity has a `T`, whether the storage exists or not. It
changes nothing, except that the clock advances. -/
theorem C75_storage_empty {c : Ctx V} {h : List Event} {main : Nat} (hr : WSpec.Reach fl c.w h) (hf : Free c main) (t : Nat) :
    ∃ b, storageEmpty t c = (c.later, .ok b) ∧ (b = true ↔ NoneHas c t) := by
  obtain ⟨A, Q, hok⟩ := reach_ok hr
  refine ⟨_, eval_idle hf.ok hf.idle hf.thread _, ?_⟩
  unfold NoneHas
  generalize stoKey .new t = k
  show ((lookupK c.w.stos k).map fun s => s.dense.isEmpty).getD true = true ↔ _
  have hs := hok.sto k
  have hg : ∀ e, c.w.isAlive e = true → c.w.get k e = .ok (look A k e) := fun e he => hok.get k (hok.ent.valid he).1
  generalize lookupK c.w.stos k = so at hs
  cases hA : A k with
  | none =>
    rw [hA] at hs
    cases hs
    refine ⟨fun _ e he => ?_, fun _ => rfl⟩
    rw [hg e he]
    unfold look
    rw [hA]; rfl
  | some a =>
    rw [hA] at hs
    cases hs with
    | some ha =>
      refine (dense_empty ha.toAbs).trans ⟨fun hn e he => ?_, fun hn i => ?_⟩
      · rw [hg e he]
        unfold look
        rw [hA]
        show Except.ok (StoSpec.lookup a.rows e) = _
        unfold StoSpec.lookup
        rw [hn]; rfl
      · cases hrow : a.rows i with
        | none => rfl
        | some r =>
          have hal := hok.owned k a hA i r hrow
          have := hn ⟨i, r.gen⟩ hal
          rw [hg _ hal] at this
          unfold look at this
          rw [hA] at this
          replace this : Except.ok (StoSpec.lookup a.rows ⟨i, r.gen⟩) = (Except.ok none : Res (Option V)) := this
          unfold StoSpec.lookup at this
          dsimp only at this
          rw [hrow] at this
          simp at this

/-- C75: the same in a world where calls were interrupted by panics, in which dead entities may have components: the condition
holds exactly when no id has a `T`, dead or alive. -/
theorem C75_storage_empty_unwind {c : Ctx V} {I : List EId} {main : Nat} (hr : WSpec.PReach fl c.w I) (hf : Free c main) (t : Nat) :
    ∃ b, storageEmpty t c = (c.later, .ok b) ∧ (b = true ↔ ∀ e, Valid e → c.w.get (stoKey .new t) e = .ok none) := by
  obtain ⟨A, Q, hok⟩ := preach_ok hr
  refine ⟨_, eval_idle hf.ok hf.idle hf.thread _, ?_⟩
  generalize stoKey .new t = k
  show ((lookupK c.w.stos k).map fun s => s.dense.isEmpty).getD true = true ↔ _
  have hs := hok.sto k
  have hg : ∀ e, Valid e → c.w.get k e = .ok (look A k e) := fun e he => hok.get k he.1
  generalize lookupK c.w.stos k = so at hs
  cases hA : A k with
  | none =>
    rw [hA] at hs
    cases hs
    refine ⟨fun _ e he => ?_, fun _ => rfl⟩
    rw [hg e he]
    unfold look
    rw [hA]; rfl
  | some a =>
    rw [hA] at hs
    cases hs with
    | some ha =>
      refine (dense_empty ha).trans ⟨fun hn e he => ?_, fun hn i => ?_⟩
      · rw [hg e he]
        unfold look
        rw [hA]
        show Except.ok (StoSpec.lookup a.rows e) = _
        unfold StoSpec.lookup
        rw [hn]; rfl
      · cases hrow : a.rows i with
        | none => rfl
        | some r =>
          have hv : Valid ⟨i, r.gen⟩ := by
            rw [ha.rows] at hrow
            cases hc : SparseSet.cellAt _ i with
            | none => rw [hc] at hrow; cases hrow
            | some x =>
              rw [hc] at hrow
              replace hrow : some x.toRow = some r := hrow
              obtain ⟨hm, hi⟩ := (SparseSet.cellAt_some ha.ok).1 hc
              have := ha.ok.cells x hm
              rw [← hi, ← Option.some.inj hrow]
              exact ⟨this.1, this.2.2.2⟩
          have := hn ⟨i, r.gen⟩ hv
          rw [hg _ hv] at this
          unfold look at this
          rw [hA] at this
          replace this : Except.ok (StoSpec.lookup a.rows ⟨i, r.gen⟩) = (Except.ok none : Res (Option V)) := this
          unfold StoSpec.lookup at this
          dsimp only at this
          rw [hrow] at this
          simp at this

/-- C75: the condition of `run_if_missing_unique::<T>()` holds exactly when the world has no unique `T`. -/
theorem C75_missing_unique {c : Ctx V} {main : Nat} (hf : Free c main) (t : Nat) :
    ∃ b, missingUnique t c = (c.later, .ok b) ∧ (b = true ↔ c.uniques t = none) := by
  refine ⟨_, eval_idle hf.ok hf.idle hf.thread _, ?_⟩
  show ((c.uniques t).map fun _ => false).getD true = true ↔ _
  cases c.uniques t with
  | none => exact ⟨fun _ => rfl, fun _ => rfl⟩
  | some v => exact ⟨(fun h => by cases h), (fun h => by cases h)⟩

/-- C75, partial: the condition on the storage of entities, by its id, holds only when no entity is alive. The converse is false, see
`C75_entities_fails`. -/
theorem C75_entities_partial {c : Ctx V} {main : Nat} (hf : Free c main) :
    ∃ b, storageEmptyById .entities c = (c.later, .ok b) ∧ (b = true → ∀ e, c.w.isAlive e = false) := by
  refine ⟨_, eval_idle hf.ok hf.idle hf.thread _, ?_⟩
  intro hb e
  replace hb : c.w.ents.data.isEmpty = true := hb
  rw [List.isEmpty_iff] at hb
  show c.w.ents.isAlive e = false
  unfold Entities.isAlive
  simp [hb]

/-! ## Systems and workloads with such a condition -/

/-- The job of a system, with its name. -/
def job (s : WSys (Ctx V) CondErr) : NamedJob (Ctx V) CondErr := ((s.name, s.fn), s.runIf)

/-- The outcome of a system that runs on `c`. -/
def Ran (s : WSys (Ctx V) CondErr) (c : Ctx V) (out : Ctx V × Except (RunErr CondErr) Unit) : Prop :=
  out.1 = (s.fn c).1 ∧ (out.2 = .ok () ↔ (s.fn c).2 = .ok ())

theorem ran_of {s s' : WSys (Ctx V) CondErr} {c c' : Ctx V} (hn : s'.fn = s.fn)
    (h : evalC s'.runIf c = (c', .ok true)) : Ran s c' (runJob (job s') c) := by
  have := (C59_system (job s') c).2 c' h
  unfold Ran
  rw [← hn]
  exact this

theorem skipped_of {s' : WSys (Ctx V) CondErr} {c c' : Ctx V}
    (h : evalC s'.runIf c = (c', .ok false)) : runJob (job s') c = (c', .ok ()) :=
  (C59_system (job s') c).1 c' h

/-- C75: a system with `run_if_storage_empty::<T>()` runs when no entity has a `T`, and otherwise does nothing. -/
theorem C75_system_run_if {c : Ctx V} {h : List Event} {main : Nat} (hr : WSpec.Reach fl c.w h) (hf : Free c main) (t : Nat)
    (s : WSys (Ctx V) CondErr) (hs : s.runIf = none) :
    (NoneHas c t → Ran s c.later (runJob (job (s.addRunIf (storageEmpty t))) c))
    ∧ (¬ NoneHas c t → runJob (job (s.addRunIf (storageEmpty t))) c = (c.later, .ok ())) := by
  obtain ⟨b, h1, h2⟩ := C75_storage_empty hr hf t
  have he : evalC (s.addRunIf (storageEmpty t)).runIf c = (c.later, .ok b) := by
    rw [C59_run_if, hs]; exact h1
  cases b with
  | true => exact ⟨fun _ => ran_of rfl he, fun hn => absurd (h2.1 rfl) hn⟩
  | false => exact ⟨fun hn => absurd (h2.2 hn) (by simp), fun _ => skipped_of he⟩

/-- C75: a system with `skip_if_storage_empty::<T>()` does nothing when no entity has a `T`, and otherwise runs. -/
theorem C75_system_skip_if {c : Ctx V} {h : List Event} {main : Nat} (hr : WSpec.Reach fl c.w h) (hf : Free c main) (t : Nat)
    (s : WSys (Ctx V) CondErr) (hs : s.runIf = none) :
    (NoneHas c t → runJob (job (s.addSkipIf (storageEmpty t))) c = (c.later, .ok ()))
    ∧ (¬ NoneHas c t → Ran s c.later (runJob (job (s.addSkipIf (storageEmpty t))) c)) := by
  obtain ⟨b, h1, h2⟩ := C75_storage_empty hr hf t
  have he : evalC (s.addSkipIf (storageEmpty t)).runIf c = (c.later, .ok (!b)) := by
    rw [C59_skip_if, hs]
    show ((storageEmpty t c).1, (storageEmpty t c).2.map (!·)) = _
    rw [h1]; rfl
  cases b with
  | true => exact ⟨fun _ => skipped_of he, fun hn => absurd (h2.1 rfl) hn⟩
  | false => exact ⟨fun hn => absurd (h2.2 hn) (by simp), fun _ => ran_of rfl he⟩

/-- C75: a system with `run_if_missing_unique::<T>()` runs when the unique is missing, and otherwise does nothing. -/
theorem C75_system_missing_unique {c : Ctx V} {main : Nat} (hf : Free c main) (t : Nat)
    (s : WSys (Ctx V) CondErr) (hs : s.runIf = none) :
    (c.uniques t = none → Ran s c.later (runJob (job (s.addRunIf (missingUnique t))) c)
      ∧ runJob (job (s.addSkipIf (missingUnique t))) c = (c.later, .ok ()))
    ∧ (c.uniques t ≠ none → runJob (job (s.addRunIf (missingUnique t))) c = (c.later, .ok ())
      ∧ Ran s c.later (runJob (job (s.addSkipIf (missingUnique t))) c)) := by
  obtain ⟨b, h1, h2⟩ := C75_missing_unique hf t
  have he : evalC (s.addRunIf (missingUnique t)).runIf c = (c.later, .ok b) := by
    rw [C59_run_if, hs]; exact h1
  have he' : evalC (s.addSkipIf (missingUnique t)).runIf c = (c.later, .ok (!b)) := by
    rw [C59_skip_if, hs]
    show ((missingUnique t c).1, (missingUnique t c).2.map (!·)) = _
    rw [h1]; rfl
  cases b with
  | true => exact ⟨fun _ => ⟨ran_of rfl he, skipped_of he'⟩, fun hn => absurd (h2.1 rfl) hn⟩
  | false => exact ⟨fun hn => absurd (h2.2 hn) (by simp), fun _ => ⟨skipped_of he, ran_of rfl he'⟩⟩

/-- C75: a workload of the world with `run_if_storage_empty::<T>()` runs its systems when no entity has a `T`, and otherwise runs
none. -/
theorem C75_workload_run_if (ops : List (RegOp (Ctx V) CondErr))
    (hbuilt : AllBuilt ops) (l : Label) (w : Workload (Ctx V) CondErr) (hw : w.runIf = none) (t : Nat)
    (hg : (Registry.after ops).get l = some (w.addRunIf (storageEmpty t)))
    {c : Ctx V} {h : List Event} {main : Nat} (hr : WSpec.Reach fl c.w h) (hf : Free c main) :
    (¬ NoneHas c t → (Scheduler.after ops).run l c = .ok (c.later, .ok ()))
    ∧ (NoneHas c t → ∃ (fnOf : Nat → SysFn (Ctx V) CondErr) (nameOf : Nat → Label),
        (∀ w, .add w ∈ ops → ∀ s ∈ w.systems, ∃ v t, .add v ∈ ops ∧ t ∈ v.systems ∧ t.typeId = s.typeId
          ∧ t.fn = fnOf s.typeId ∧ t.name = nameOf s.typeId)
        ∧ ∃ plan, Schedule (w.addRunIf (storageEmpty t)) plan
        ∧ (Scheduler.after ops).run l c = .ok (runJobs ((w.addRunIf (storageEmpty t)).inOrderBy fnOf nameOf plan) c.later)) := by
  obtain ⟨b, h1, h2⟩ := C75_storage_empty hr hf t
  have he : evalC (w.addRunIf (storageEmpty t)).runIf c = (c.later, .ok b) := by
    rw [C59_workload_run_if, hw]; exact h1
  obtain ⟨fnOf, nameOf, ho, this⟩ := C61_run ops hbuilt
  have := this l c
  rw [hg] at this
  obtain ⟨_, _, plan, hp, hrun⟩ := this
  have hrun := hrun c
  unfold runAll at hrun
  rw [he] at hrun
  cases b with
  | true => exact ⟨fun hn => absurd (h2.1 rfl) hn, fun _ => ⟨fnOf, nameOf, ho, plan, hp, hrun⟩⟩
  | false => exact ⟨fun _ => hrun, fun hn => absurd (h2.2 hn) (by simp)⟩

/-- C75: the opposite for `skip_if_storage_empty::<T>()`. -/
theorem C75_workload_skip_if (ops : List (RegOp (Ctx V) CondErr))
    (hbuilt : AllBuilt ops) (l : Label) (w : Workload (Ctx V) CondErr) (hw : w.runIf = none) (t : Nat)
    (hg : (Registry.after ops).get l = some (w.addSkipIf (storageEmpty t)))
    {c : Ctx V} {h : List Event} {main : Nat} (hr : WSpec.Reach fl c.w h) (hf : Free c main) :
    (NoneHas c t → (Scheduler.after ops).run l c = .ok (c.later, .ok ()))
    ∧ (¬ NoneHas c t → ∃ (fnOf : Nat → SysFn (Ctx V) CondErr) (nameOf : Nat → Label),
        (∀ w, .add w ∈ ops → ∀ s ∈ w.systems, ∃ v t, .add v ∈ ops ∧ t ∈ v.systems ∧ t.typeId = s.typeId
          ∧ t.fn = fnOf s.typeId ∧ t.name = nameOf s.typeId)
        ∧ ∃ plan, Schedule (w.addSkipIf (storageEmpty t)) plan
        ∧ (Scheduler.after ops).run l c = .ok (runJobs ((w.addSkipIf (storageEmpty t)).inOrderBy fnOf nameOf plan) c.later)) := by
  obtain ⟨b, h1, h2⟩ := C75_storage_empty hr hf t
  have he : evalC (w.addSkipIf (storageEmpty t)).runIf c = (c.later, .ok (!b)) := by
    rw [C59_workload_skip_if, hw]
    show ((storageEmpty t c).1, (storageEmpty t c).2.map (!·)) = _
    rw [h1]; rfl
  obtain ⟨fnOf, nameOf, ho, this⟩ := C61_run ops hbuilt
  have := this l c
  rw [hg] at this
  obtain ⟨_, _, plan, hp, hrun⟩ := this
  have hrun := hrun c
  unfold runAll at hrun
  rw [he] at hrun
  cases b with
  | false => exact ⟨fun hn => absurd (h2.2 hn) (by simp), fun _ => ⟨fnOf, nameOf, ho, plan, hp, hrun⟩⟩
  | true => exact ⟨fun _ => hrun, fun hn => absurd (h2.1 rfl) hn⟩

/-! ## Examples -/

namespace Ex

/-- The world of `WSpec.demo`: three entities, components of the types with keys 0 and 1; one unique of type 3. -/
def ctx : Ctx Nat := { w := WSpec.demo, uniques := fun t => if t = 3 then some 33 else none, cells := Borrow.Ex.idle }

theorem free : Free ctx 0 := ⟨Borrow.Ex.idle_ok, Borrow.Ex.idle_idle, fun ⟨_, h⟩ => absurd rfl h⟩

/-- Type 0 has components, type 5 has none; unique 3 is there, unique 4 is missing. -/
example : WSpec.Reach WSpec.demoFlags ctx.w [.added ⟨0, 0⟩, .added ⟨1, 0⟩, .added ⟨2, 0⟩] ∧ Free ctx 0
    ∧ (storageEmpty 0 ctx).2 = .ok false ∧ (storageEmpty 5 ctx).2 = .ok true
    ∧ (missingUnique 3 ctx).2 = .ok false ∧ (missingUnique 4 ctx).2 = .ok true :=
  ⟨WSpec.demo_reach, free, rfl, rfl, rfl, rfl⟩

/-- The same after a panic of the user: `PReach`. -/
example : ∃ (w : World Nat) (I : List EId), WSpec.PReach WSpec.demoFlags w I ∧ w.get (stoKey .new 0) ⟨0, 0⟩ = .ok (some 10)
    ∧ (storageEmpty 0 { ctx with w := w }).2 = .ok false ∧ (storageEmpty 1 { ctx with w := w }).2 = .ok true :=
  ⟨_, _, .addEntity (p := fun _ => (false, false)) (cs := [(0, some 10)]) (.init false) rfl (by unfold WSpec.Fits; decide), rfl, rfl, rfl⟩

/-- A system that sets the clock to 1000. -/
def sys : WSys (Ctx Nat) CondErr :=
  { typeId := 1, name := .system 1, fn := fun c => ({ c with w := { c.w with counter := 1000 } }, .ok ()), borrows := [],
    tracking := [], runIf := none, tags := [.system 1], beforeAll := [], afterAll := [], after := [], before := [], uid := 0, reqIn := [],
    reqBefore := [], reqAfter := [] }

example : (runJob (job (sys.addRunIf (storageEmpty 0))) ctx).1.w.counter = 4 + 1
    ∧ (runJob (job (sys.addRunIf (storageEmpty 5))) ctx).1.w.counter = 1000
    ∧ (runJob (job (sys.addSkipIf (storageEmpty 0))) ctx).1.w.counter = 1000
    ∧ (runJob (job (sys.addSkipIf (storageEmpty 5))) ctx).1.w.counter = 4 + 1 := ⟨rfl, rfl, rfl, rfl⟩

/-- Two workloads with one system. -/
def ops : List (RegOp (Ctx Nat) CondErr) :=
  [.add (((Workload.new (.str 1)).withSystem sys).addRunIf (storageEmpty 0)),
   .add (((Workload.new (.str 2)).withSystem sys).addSkipIf (storageEmpty 0))]

theorem sys_fresh : Fresh sys := .ofFn (t := 1) (bs := []) (f := sys.fn) rfl

theorem ops_built : Built (((Workload.new (.str 1)).withSystem sys).addRunIf (storageEmpty 0))
    ∧ Built (((Workload.new (.str 2)).withSystem sys).addSkipIf (storageEmpty 0)) :=
  ⟨.runIf _ (.withSystem (.new _ trivial) sys_fresh), .skipIf _ (.withSystem (.new _ trivial) sys_fresh)⟩

theorem ops_fair : Fair (fun _ => sys.fn) (fun _ => sys.name) ops := by
  intro w hw
  simp only [ops, List.mem_cons, RegOp.add.injEq, List.not_mem_nil, or_false] at hw
  rcases hw with rfl | rfl
  · refine ⟨ops_built.1, ?_, ?_⟩ <;>
      (intro s hs; have : s ∈ [sys] := hs; simp only [List.mem_cons, List.not_mem_nil, or_false] at this; subst this; rfl)
  · refine ⟨ops_built.2, ?_, ?_⟩ <;>
      (intro s hs; have : s ∈ [sys] := hs; simp only [List.mem_cons, List.not_mem_nil, or_false] at this; subst this; rfl)

example : AllBuilt ops
    ∧ (Registry.after ops).get (.str 1) = some (((Workload.new (.str 1)).withSystem sys).addRunIf (storageEmpty 0))
    ∧ (Registry.after ops).get (.str 2) = some (((Workload.new (.str 2)).withSystem sys).addSkipIf (storageEmpty 0)) := by
  have hnil : AllBuilt ([] : List (RegOp (Ctx Nat) CondErr)) := fun w hw => by cases hw
  have h1 := (C61_add_result [] hnil _ ops_built.1 rfl).1.1 rfl
  have hreg : (Registry.after [RegOp.add (((Workload.new (.str 1)).withSystem sys).addRunIf (storageEmpty 0))])
      = { get := fun l => if l = .str 1 then some (((Workload.new (.str 1)).withSystem sys).addRunIf (storageEmpty 0)) else none
          default := some (.str 1) } := by
    unfold Registry.after
    rw [List.foldl_cons, List.foldl_nil]
    unfold Registry.step
    dsimp only
    rw [if_pos ⟨rfl, h1⟩]
    rfl
  have hn : (Registry.after [RegOp.add (((Workload.new (.str 1)).withSystem sys).addRunIf (storageEmpty 0))]).get
      (((Workload.new (.str 2)).withSystem sys).addSkipIf (storageEmpty 0)).name = none := by
    rw [hreg]; rfl
  have h2 := (C61_add_result _ (fun w hw => (ops_fair w (by
    simp only [List.mem_cons, List.not_mem_nil, or_false] at hw
    simp only [ops, List.mem_cons]; exact .inl hw)).1) _ ops_built.2 hn).1.1 rfl
  have hreg2 : Registry.after ops = (Registry.after [RegOp.add (((Workload.new (.str 1)).withSystem sys).addRunIf (storageEmpty 0))]).step
      (.add (((Workload.new (.str 2)).withSystem sys).addSkipIf (storageEmpty 0))) := rfl
  refine ⟨fun w hw => (ops_fair w hw).1, ?_, ?_⟩ <;>
  · rw [hreg2]
    unfold Registry.step
    dsimp only
    rw [if_pos ⟨hn, h2⟩]
    rw [hreg]
    rfl

example : ((Scheduler.after ops).run (.str 1) ctx).toOption.map (·.1.w.counter) = some 5
    ∧ ((Scheduler.after ops).run (.str 2) ctx).toOption.map (·.1.w.counter) = some 1000 := ⟨rfl, rfl⟩

end Ex

/-! ## What does not hold -/

/-- C75 fails when a view is held, of any storage, by the caller of `run_workload` or by another thread. The documentation says "if the
storage is already borrowed, assume it's not empty" (`src/scheduler/system_modificator.rs:19-20`), but the condition borrows
`AllStoragesViewMut`: it fails, and with it the workload, whatever storage it asks about. The `Err(_) => false` arm is never reached. -/
theorem C75_borrowed_fails {st : Cells} (hok : st.Ok) {r : Req} {v : View} (hroom : st.Room (WReq.views r).cost) {c : Ctx V}
    (hv : st.worldBorrow (.views r) = .ok (c.cells, some v)) (hh : v.sharedOn allCell ≠ 0) (id : Sid)
    (s : WSys (Ctx V) CondErr) (hs : s.runIf = none) :
    storageEmptyById id c = (c.later, .error .refused)
    ∧ runJob (job (s.addRunIf (storageEmptyById id))) c = (c.later, .error (.run s.name .refused))
    ∧ runJob (job (s.addSkipIf (storageEmptyById id))) c = (c.later, .error (.run s.name .refused)) := by
  obtain ⟨st', o, h1, h2, _, h4⟩ := C39_world_borrow (.views r) hok hroom
  rw [hv] at h1
  cases h1
  have hb : storageEmptyById id c = (c.later, .error .refused) := by
    refine eval_busy h2 (.inl ?_) id
    have := ((h4 v rfl).2 allCell).1
    unfold Cell.guards
    omega
  refine ⟨hb, ?_, ?_⟩
  · have he : evalC (s.addRunIf (storageEmptyById id)).runIf c = (c.later, .error .refused) := by
      rw [C59_run_if, hs]; exact hb
    replace he : evalC (job (s.addRunIf (storageEmptyById id))).2 c = (c.later, .error .refused) := he
    unfold runJob
    rw [he]
    rfl
  · have he : evalC (s.addSkipIf (storageEmptyById id)).runIf c = (c.later, .error .refused) := by
      rw [C59_skip_if, hs]
      show ((storageEmptyById id c).1, (storageEmptyById id c).2.map (!·)) = _
      rw [hb]; rfl
    replace he : evalC (job (s.addSkipIf (storageEmptyById id))).2 c = (c.later, .error .refused) := he
    unfold runJob
    rw [he]
    rfl

/-- Here a `View` of another storage is held. -/
example : ∃ st' v, Borrow.Ex.idle.worldBorrow (.views (.view 77 false true true)) = .ok (st', some v) ∧ v.sharedOn allCell ≠ 0
    ∧ (storageEmpty 0 { Ex.ctx with cells := st' }).2 = .error .refused :=
  ⟨_, _, rfl, by decide, rfl⟩

/-- C75 fails for `NonSend` components: `run_if_storage_empty::<T>()` looks at `SparseSet<T>` only, and the `T`s given through a
`NonSend<ViewMut<T>>` are in another storage. Here entity 0 has a `T` and the condition holds. -/
theorem C75_non_send_fails : ∃ (w : World Nat) (h : List Event), WSpec.Reach WSpec.demoFlags w h ∧ w.isAlive ⟨0, 0⟩ = true
    ∧ w.get (stoKey .nonSend 0) ⟨0, 0⟩ = .ok (some 20)
    ∧ (storageEmpty 0 ({ w := w, uniques := fun _ => none, cells := Borrow.Ex.idle } : Ctx Nat)).2 = .ok true :=
  ⟨_, _, .viewAdd (k := 1) (e := ⟨0, 0⟩) (v := 20) (now := 1) (.create 1 (.addEntity (cs := []) (.init false) rfl (by unfold WSpec.Fits; decide)))
    rfl rfl rfl, rfl, rfl, rfl⟩

namespace Ex

/-- A world whose only entity was deleted. -/
def gone : World Nat :=
  match (World.new : World Nat).addEntity WSpec.demoFlags [] with
  | .ok (e, _, w) =>
    match w.deleteEntity e with
    | .ok (_, w) => w
    | .error _ => w
  | .error _ => World.new

end Ex

/-- C75 fails for the storage of entities: once all the entities are deleted it is still not "empty", since `Entities::is_empty` looks
at the slots. -/
theorem C75_entities_fails : ∃ (w : World Nat) (h : List Event), WSpec.Reach WSpec.demoFlags w h ∧ (∀ e, w.isAlive e = false)
    ∧ (storageEmptyById .entities ({ w := w, uniques := fun _ => none, cells := Borrow.Ex.idle } : Ctx Nat)).2 = .ok false := by
  refine ⟨Ex.gone, _, .deleteEntity (e := ⟨0, 0⟩) (b := true) (.addEntity (cs := []) (.init false) rfl
    (by unfold WSpec.Fits; decide)) (by decide) rfl, ?_, rfl⟩
  intro e
  show Ex.gone.ents.isAlive e = false
  have hd : Ex.gone.ents.data = [⟨281474976710654, 1⟩] := by rfl
  unfold Entities.isAlive
  rw [hd]
  obtain ⟨i, g⟩ := e
  match i with
  | 0 =>
    show (decide ((⟨0, g⟩ : EId) = ⟨281474976710654, 1⟩)) = false
    rw [decide_eq_false_iff_not]
    intro h
    have := congrArg EId.idx h
    cases this
  | n + 1 => rfl

/-! ## The local thread pool -/

/-- A world made with the `thread_local` feature: the cell of `AllStorages` is bound to the thread that made it (`src/world.rs:49-55`). -/
def Bound (st : Cells) (main : Nat) : Prop := st.owner allCell = some main

/-- C57 fails with a local thread pool and the `thread_local` feature. The system is put in the batch as one that needs the main thread,
but `run_batches_parallel` runs that system too on a worker of the pool (`src/world/run_batches.rs:121-126`), where `AllStorages` cannot
be borrowed exclusively. Without the pool the borrow succeeds. -/
theorem C57_local_pool_fails {st : Cells} {main worker : Nat} (hok : st.Ok) (hidle : Idle st main) (hb : Bound st main)
    (hw : worker ≠ main) :
    (WReq.allStorages true).infos st = [{ storage := Sched.allStorages, exclusive := true, threadSafe := false }]
    ∧ st.exec (runsOn (some worker) main) (.borrow allCell true) = .ok ({ st with me := worker }, false)
    ∧ ∃ st', st.exec (runsOn none main) (.borrow allCell true) = .ok (st', true) := by
  have hp : ∀ me, (({ st with me := me } : Cells).create allCell) = { st with me := me } := by
    intro me
    unfold Cells.create
    rw [if_pos hok.base.1]
  have ho : st.owner allCell = some main := hb
  refine ⟨?_, ?_, ?_⟩
  · unfold WReq.infos
    rw [ho]; rfl
  · show (({ st with me := worker } : Cells).create allCell).guard allCell true = _
    rw [hp]
    unfold Cells.guard
    simp only [if_true, borrowMutEv]
    rw [ho]
    dsimp only
    rw [if_pos (fun h => hw h.symm)]
  · show ∃ st', (({ st with me := main } : Cells).create allCell).guard allCell true = .ok (st', true)
    rw [hp]
    unfold Cells.guard
    simp only [if_true, borrowMutEv]
    rw [ho]
    dsimp only
    rw [if_neg (by simp)]
    dsimp only
    obtain ⟨h0, hr0⟩ := hok.reach allCell
    exact ⟨_, act_write (st := { st with me := main }) hr0.inv (hidle.guards allCell)⟩

namespace Ex

/-- A new world made by thread 0 with the `thread_local` feature. -/
def bound : Cells := { Borrow.Ex.idle with owner := fun s => if s = allCell then some 0 else none, isSync := fun _ => true }

example : bound.Ok ∧ Idle bound 0 ∧ Bound bound 0 ∧ (7 : Nat) ≠ 0 :=
  ⟨⟨fun _ => ⟨[], .new⟩, fun _ _ => rfl, by decide⟩, ⟨fun _ => rfl, rfl, fun s t h => by
    unfold bound at h
    dsimp only at h
    split at h
    · exact (Option.some.inj h).symm
    · cases h⟩, rfl, by decide⟩

/-- On thread 0 the condition can be evaluated, on thread 7 it cannot. -/
example : (storageEmpty 5 { ctx with cells := bound }).2 = .ok true
    ∧ (storageEmpty 5 { ctx with cells := { bound with me := runsOn (some 7) 0 } }).2 = .error .refused := ⟨rfl, rfl⟩

end Ex

/-- C75 fails with a local thread pool and the `thread_local` feature: conditions on storages are always refused. -/
theorem C75_local_pool_fails {c : Ctx V} {main worker : Nat} (hok : c.cells.Ok) (hb : Bound c.cells main) (hw : worker ≠ main)
    (hme : c.cells.me = runsOn (some worker) main) (id : Sid) :
    storageEmptyById id c = (c.later, .error .refused) :=
  eval_busy hok (.inr ⟨main, hb, by rw [hme]; exact fun h => hw h.symm⟩) id

end Verif.Conds
