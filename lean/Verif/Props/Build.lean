import Verif.Props.Register

/-!
# C78: a workload built outside a world, C79: a workload does the same in every world
-/
namespace Verif.Reg
open Sched Track Tracking

variable {V W η ε : Type} {fl : Flags} {fnOf : Nat → SysFn W η} {nameOf : Nat → Label}

/-! ## C79 -/

/-- C79. What `add_to_world` says about a workload does not depend on the workloads added before, as long as its name is
free. -/
theorem C79_result (sch sch' : Scheduler W η) (wl : Workload W η) (h : sch.contains wl.name = false)
    (h' : sch'.contains wl.name = false) : (sch.add wl).2 = (sch'.add wl).2 := by
  unfold Scheduler.add
  rcases createWorkload_same sch sch' wl h h' with ⟨e, h1, h2⟩ | ⟨c, c', h1, h2, _⟩
  · rw [h1, h2]
    cases e with
    | fault f => rfl
    | err e => cases e <;> rfl
  · rw [h1, h2]

/-- C79. The order of the systems, and the batches, are those the workload gets alone in a new world; this order is a schedule
(C49 to C54), and running the workload, under whatever name it has by then, is running the systems in this order. -/
theorem C79_alone_partial (ops : List (RegOp W η)) (hf : Fair fnOf nameOf ops) (l : Label) (wl : Workload W η)
    (hg : (Registry.after ops).get l = some wl) :
    ∃ plan, wl.Alone plan ∧ Schedule wl plan ∧
      ∀ x, (Scheduler.after ops).run l x = .ok (runAll l wl.runIf (wl.inOrder plan) x) := by
  have hs := sim_after ops hf
  cases hb : (Scheduler.after ops).workload l with
  | none => rw [(hs.absent l).mp hb] at hg; cases hg
  | some b =>
    obtain ⟨_, _, _, plan, ha, hr⟩ := hs.present l b wl hb hg
    refine ⟨plan, ha, hr.schedule, ?_⟩
    intro x
    unfold Scheduler.run
    rw [hb]
    exact runBatches_ok hr l x

theorem Alone.unique {wl : Workload W η} {p p' : List (Nat × Nat)} (h : wl.Alone p) (h' : wl.Alone p') : p = p' := by
  obtain ⟨c, h1, h2⟩ := h
  obtain ⟨c', h3, h4⟩ := h'
  rw [h1] at h3
  cases h3
  rw [← h2, ← h4]

/-- C79. A workload does the same in all the worlds it was added to, whatever else was added, renamed or refused before and
after. (Functions and names may be looked up in different tables.) -/
theorem C79_same_partial {fnOf' : Nat → SysFn W η} {nameOf' : Nat → Label} (ops ops' : List (RegOp W η)) (hf : Fair fnOf nameOf ops)
    (hf' : Fair fnOf' nameOf' ops') (l : Label) (wl : Workload W η) (hg : (Registry.after ops).get l = some wl)
    (hg' : (Registry.after ops').get l = some wl) (x : W) :
    (Scheduler.after ops).run l x = (Scheduler.after ops').run l x := by
  obtain ⟨p, h1, _, h2⟩ := C79_alone_partial ops hf l wl hg
  obtain ⟨p', h1', _, h2'⟩ := C79_alone_partial ops' hf' l wl hg'
  rw [h2, h2', Alone.unique h1 h1']

/-! ## C78 -/

theorem build_ok {wl : Workload W η} {p : Scheduled W η} {i : WorkloadInfo} (h : build wl = .ok (p, i)) :
    ∃ c b, createWorkload Scheduler.empty wl = .ok c ∧ c.sch.workload wl.name = some b ∧ i = c.info ∧
      p = { name := wl.name, systems := c.sch.systems, systemNames := c.sch.systemNames, tracking := trackingOf wl, batches := b } := by
  unfold build at h
  simp only [bind, Except.bind] at h
  cases hc : createWorkload Scheduler.empty wl with
  | error e => rw [hc] at h; cases h
  | ok c =>
    rw [hc] at h
    dsimp only at h
    cases hb : c.sch.workload wl.name with
    | none => rw [hb] at h; cases h
    | some b => rw [hb] at h; cases h; exact ⟨c, b, rfl, hb, rfl, rfl⟩

/-- C78. `build` succeeds for the workloads that can be added to a world and refuses the others with the same error; it never
panics. What it returns runs the systems in the order they have in every world. -/
theorem C78_build_partial {wl : Workload W η} (hw : Built wl) (hf : OneFn fnOf wl) (hn : OneName nameOf wl) :
    match build wl with
    | .error f => ¬ Buildable wl ∧ ∃ e, f = .err e ∧ ∀ sch : Scheduler W η, sch.contains wl.name = false → (sch.add wl).2 = .error (.err e)
    | .ok (p, _) => Buildable wl ∧ ∃ plan, wl.Alone plan ∧ Schedule wl plan ∧
        ∀ x, p.run x = .ok (runAll wl.name wl.runIf (wl.inOrder plan) x) := by
  have hfair : Fair fnOf nameOf [RegOp.add wl] := by
    intro v hv
    have : v = wl := by simpa using hv
    subst this
    exact ⟨hw, hf, hn⟩
  rcases add_cases hw (Scheduler.empty : Scheduler W η) with ⟨hc, _⟩ | ⟨_, hb, e, he, hne⟩ | ⟨_, hb, c, hc, he, hst⟩
  · cases hc
  · have hbe : build wl = .error (.err e) := by
      unfold build
      simp only [bind, Except.bind]
      cases hc : createWorkload Scheduler.empty wl with
      | ok c =>
        unfold Scheduler.add at he
        rw [hc] at he
        cases congrArg Prod.snd he
      | error f =>
        unfold Scheduler.add at he
        rw [hc] at he
        cases f with
        | fault g => cases congrArg Prod.snd he
        | err e' =>
          cases e' with
          | alreadyExists => cases congrArg Prod.snd he; exact absurd rfl hne
          | _ => cases congrArg Prod.snd he; rfl
    rw [hbe]
    refine ⟨hb, e, rfl, fun sch hs => ?_⟩
    rw [C79_result sch Scheduler.empty wl hs rfl, he]
  · cases hbd : build wl with
    | error f =>
      exfalso
      unfold build at hbd
      simp only [bind, Except.bind, hc] at hbd
      have : c.sch.workload wl.name = some c.batches := by
        rw [hst, store_workload _ _ _ _ _, if_pos rfl]
        have hg := (insertSystems_ok wl.systems (Scheduler.empty : Scheduler W η)).2.2
        unfold Scheduler.contains
        rw [hg.workloads]
        rfl
      rw [this] at hbd
      cases hbd
    | ok q =>
      obtain ⟨p, i⟩ := q
      dsimp only
      refine ⟨hb, ?_⟩
      have hs := sim_after [RegOp.add wl] hfair
      obtain ⟨c', b, hc', hb', _, hp⟩ := build_ok hbd
      rw [hc] at hc'
      cases hc'
      have hw' : (Scheduler.after [RegOp.add wl]).workload wl.name = some b := by
        show (((Scheduler.empty : Scheduler W η).add wl).1).workload wl.name = some b
        rw [he]
        exact hb'
      have hg : (Registry.after [RegOp.add wl]).get wl.name = some wl := by
        unfold Registry.after
        show (Registry.step Registry.empty (.add wl)).get wl.name = some wl
        unfold Registry.step
        dsimp only
        rw [if_pos ⟨rfl, hb⟩]
        dsimp only
        rw [if_pos rfl]
      obtain ⟨plan, h1, h2, h3⟩ := C79_alone_partial [RegOp.add wl] hfair wl.name wl hg
      refine ⟨plan, h1, h2, fun x => ?_⟩
      rw [← h3]
      unfold Scheduler.run
      rw [hw', hp]
      show runBatches b c.sch.systems c.sch.systemNames wl.name x = runBatches b ((Scheduler.empty.add wl).1).systems ((Scheduler.empty.add wl).1).systemNames wl.name x
      rw [he]
      rfl

/-- C78. Running it with a world is running the workload that was added to that world. -/
theorem C78_same_partial {wl : Workload W η} {p : Scheduled W η} {i : WorkloadInfo} (h : build wl = .ok (p, i))
    (ops : List (RegOp W η)) (hf : Fair fnOf nameOf ops) (hg : (Registry.after ops).get wl.name = some wl) (x : W) :
    p.run x = (Scheduler.after ops).run wl.name x := by
  have hs := sim_after ops hf
  cases hb : (Scheduler.after ops).workload wl.name with
  | none => rw [(hs.absent _).mp hb] at hg; cases hg
  | some b =>
    obtain ⟨h1, h2, _, _⟩ := hs.present _ b wl hb hg
    have hB := C78_build_partial (fnOf := fnOf) (nameOf := nameOf) h1 (fun s hs => (congrArg Prod.snd (h2 s hs)).symm)
      fun s hs => (congrArg Prod.fst (h2 s hs)).symm
    rw [h] at hB
    obtain ⟨_, plan, ha, _, hr⟩ := hB
    obtain ⟨plan', ha', _, hr'⟩ := C79_alone_partial ops hf wl.name wl hg
    rw [hr, hr', Alone.unique ha ha']

/-- C78. The information it returns is the one kept by a new world it is added to. -/
theorem C78_info {wl : Workload W η} {p : Scheduled W η} {i : WorkloadInfo} (h : build wl = .ok (p, i)) :
    ((Scheduler.empty : Scheduler W η).add wl).1.info wl.name = some i := by
  obtain ⟨c, b, hc, _, hi, _⟩ := build_ok h
  unfold Scheduler.add
  rw [hc]
  dsimp only
  rw [insertInfo_info, if_pos rfl, hi]

/-- C78. `apply_tracking` fails only when `AllStorages` or one of the storages is borrowed. -/
theorem C78_apply_result {wl : Workload W η} {p : Scheduled W η} {i : WorkloadInfo} (h : build wl = .ok (p, i)) (held : Held)
    (w : World V) :
    match (p.applyTracking fl held w).2 with
    | .ok _ => held.all = false
    | .error none => held.all = true ∧ (p.applyTracking fl held w).1 = w
    | .error (some k) => held.all = false ∧ held.sto k = true ∧ ∃ s ∈ wl.systems, ∃ kind, (k, kind) ∈ s.tracking := by
  obtain ⟨c, b, _, _, _, hp⟩ := build_ok h
  have hpt : p.tracking = trackingOf wl := by rw [hp]
  unfold Scheduled.applyTracking
  cases ha : held.all with
  | true => exact ⟨rfl, rfl⟩
  | false =>
    rw [if_neg (by decide), hpt]
    cases he : enableAll fl held.sto (trackingOf wl) w with
    | mk w1 r =>
      cases r with
      | ok u => rfl
      | error k =>
        obtain ⟨h1, kind, h2⟩ := enableAll_error held.sto (trackingOf wl) w k (by rw [he])
        obtain ⟨s, hs, ht⟩ := List.mem_flatMap.mp h2
        exact ⟨rfl, h1, s, hs, kind, ht⟩

theorem applyTracking_ok {p : Scheduled W η} {held : Held} {w w' : World V} (h : p.applyTracking fl held w = (w', .ok ())) :
    enableAll fl held.sto p.tracking w = (w', .ok ()) := by
  unfold Scheduled.applyTracking at h
  split at h
  · cases h
  · split at h
    · cases h
    · rename_i he
      cases h
      exact he

/-- C78. After `apply_tracking`, every view of every system can be borrowed, then and in every later world. -/
theorem C78_tracking {wl : Workload W η} {p : Scheduled W η} {i : WorkloadInfo} (h : build wl = .ok (p, i)) {held : Held}
    {w w' : World V} (ha : p.applyTracking fl held w = (w', .ok ())) {s : WSys W η} (hs : s ∈ wl.systems) {k : Nat} {kind : Kind}
    (ht : (k, kind) ∈ s.tracking) : ∀ w'', Later fl w' w'' → Grants fl w'' k kind := by
  obtain ⟨c, b, _, _, _, hp⟩ := build_ok h
  have he := applyTracking_ok ha
  have hm : (k, kind) ∈ p.tracking := by rw [hp]; exact List.mem_flatMap.mpr ⟨s, hs, ht⟩
  obtain ⟨h1, _⟩ := enableAll_ok _ _ _ _ he _ hm
  exact fun w'' hl => (later_keeps hl).grants h1

/-- C78. After `apply_tracking`, no run of the workload fails because tracking is not enabled. -/
theorem C78_run {fnOf : Nat → SysFn (World V) (ViewErr ε)} {wl : Workload (World V) (ViewErr ε)}
    {p : Scheduled (World V) (ViewErr ε)} {i : WorkloadInfo} (h : build wl = .ok (p, i)) (hw : Built wl) (hf : OneFn fnOf wl)
    (hn : OneName nameOf wl) (ht : Tame fl wl) {held : Held} {w w' : World V}
    (ha : p.applyTracking fl held w = (w', .ok ())) (x : World V) (hx : Later fl w' x) :
    ∃ x' r, p.run x = .ok (x', r) ∧ Later fl w' x' ∧ ∀ n k, r ≠ .error (.run n (.trackingNotEnabled k)) := by
  have hB := C78_build_partial hw hf hn
  rw [h] at hB
  obtain ⟨_, plan, _, _, hr⟩ := hB
  obtain ⟨h1, h2⟩ := runAll_tame ht wl.name plan x fun s hs q hq => C78_tracking h ha hs hq x hx
  exact ⟨_, _, hr x, hx.trans h1, h2⟩

/-- When `AllStorages` is borrowed while a workload is added, the addition fails after the workload was stored: it is there,
without information, its views are refused, and adding it again fails because it exists. -/
theorem C77_borrowed_fails {wl : Workload W η} (hw : Built wl) (hb : Buildable wl) {sch : Scheduler W η}
    (hn : sch.contains wl.name = false) {held : Held} (hs : held.scheduler = false) (ha : held.all = true) (w : World V) :
    ∃ sch', addToWorld fl held w sch wl = (w, sch', .error .trackAll) ∧ sch'.contains wl.name = true ∧
      (∀ l, sch'.info l = sch.info l) ∧
      ∀ (held' : Held) (w' : World V), held'.scheduler = false →
        (addToWorld fl held' w' sch' wl).2.2 = .error (.sched (.err .alreadyExists)) := by
  rcases add_cases hw sch with ⟨h, _⟩ | ⟨_, h, _⟩ | ⟨_, _, c, hc, _, hst⟩
  · rw [hn] at h; cases h
  · exact absurd hb h
  · have hcont : c.sch.contains wl.name = true := by
      rw [hst]
      unfold Scheduler.contains Scheduler.store
      simp
    refine ⟨c.sch, ?_, hcont, ?_, ?_⟩
    · unfold addToWorld
      rw [if_neg (by rw [hs]; decide), hc]
      dsimp only
      rw [if_pos ha]
    · intro l
      unfold Scheduler.info
      rw [hst]
      show (List.find? _ (insertSystems sch wl.systems).1.infos).map _ = _
      rw [(insertSystems_kept wl.systems sch).1]
    · intro held' w' hs'
      unfold addToWorld
      rw [if_neg (by rw [hs']; decide)]
      have : createWorkload c.sch wl = .error (.err .alreadyExists) := by
        unfold createWorkload
        rw [if_pos hcont]
      rw [this]

/-! ## Demonstrations -/

end Verif.Reg

namespace Verif.Reg.Demo
open Sched Track Tracking

def fl : Flags := fun _ => (false, false, false, false)
def free : Held := { scheduler := false, all := false, sto := fun _ => false }
def ps : List Param := [.comp 5 false true .insertion, .comp 6 true true .all]

/-- A system with a view of inserted components 5 and of all changes of components 6, which does nothing. -/
def sysOf : WSys (World Nat) (ViewErr Unit) :=
  match ofParams fl 1 ps (some 0) (fun _ w => (w, .ok ())) with
  | .ok s => s
  | .error _ => { typeId := 0, name := .str 0, fn := fun w => (w, .ok ()), borrows := [], tracking := [], runIf := none, tags := [],
                  beforeAll := [], afterAll := [], after := [], before := [], uid := 0, reqIn := [], reqBefore := [], reqAfter := [] }

theorem sysOf_ok : ofParams fl 1 ps (some 0) (fun _ w => (w, (.ok () : Except Unit Unit))) = .ok sysOf := rfl

def wl : Workload (World Nat) (ViewErr Unit) := (Workload.new (.str 1)).withSystem sysOf

theorem wl_built : Built wl := .withSystem (.new _ trivial) (.ofFn sysOf_ok)

theorem wl_tame : Tame fl wl where
  systems := by
    intro s hs
    have : s = { sysOf with uid := sysOf.uid + 0 } := by simpa [wl, Workload.withSystem, Workload.new] using hs
    subst this
    exact ⟨ps, some 0, fun _ w => (w, .ok ()), rfl, rfl, fun _ _ => .refl⟩
  conditions := by
    intro c hc
    rcases hc with hc | ⟨s, hs, hc⟩
    · cases hc
    · have : s = { sysOf with uid := sysOf.uid + 0 } := by simpa [wl, Workload.withSystem, Workload.new] using hs
      subst this
      cases hc

theorem wl_fair : Fair (fun _ => sysOf.fn) (fun _ => .system 1) [RegOp.add wl] := by
  intro v hv
  have : v = wl := by simpa using hv
  subst this
  refine ⟨wl_built, ?_, ?_⟩ <;>
  · intro s hs
    have : s = { sysOf with uid := sysOf.uid + 0 } := by simpa [wl, Workload.withSystem, Workload.new] using hs
    subst this
    rfl

/-- The hypotheses of `C77_enabled`, `C77_run_partial` and `C78_run` are met. -/
theorem added : ∃ w' sch', addToWorld fl free (World.new : World Nat) (Scheduler.after []) wl = (w', sch', .ok ()) := ⟨_, _, rfl⟩

example : ∃ w', Grants fl w' 6 .all ∧ ∃ sch', addToWorld fl free (World.new : World Nat) (Scheduler.after []) wl = (w', sch', .ok ()) := by
  obtain ⟨w', sch', h⟩ := added
  exact ⟨w', (C77_enabled h (s := { sysOf with uid := sysOf.uid + 0 }) (by simp [wl, Workload.withSystem, Workload.new])
    (k := 6) (kind := .all) (by decide)).2 w' .refl, sch', h⟩

/-- Without the addition the view is refused: tracking is not declared by the components. -/
theorem C77_not_before : ¬ Grants fl (World.new : World Nat) 6 .all := fun h => by
  have := h (some 0) 0
  revert this
  decide

/-- The whole story on the example. -/
example : ∃ x' r, (Scheduler.after [RegOp.add wl]).run (.str 1) (addToWorld fl free (World.new : World Nat) (Scheduler.after []) wl).1 = .ok (x', r) ∧
    ∀ n k, r ≠ .error (.run n (.trackingNotEnabled k)) := by
  obtain ⟨w', sch', h⟩ := added
  have hadd := C61_add_result [] (fun _ h => by cases h) wl wl_built rfl
  have hok : (Scheduler.add (Scheduler.after []) wl).2 = .ok () := rfl
  have hg : (Registry.after [RegOp.add wl]).get (.str 1) = some wl := by
    unfold Registry.after
    show (Registry.step Registry.empty (.add wl)).get (.str 1) = some wl
    unfold Registry.step
    dsimp only
    rw [if_pos ⟨rfl, hadd.1.mp hok⟩]
    rfl
  obtain ⟨_, x', r, h1, _, h3⟩ := C77_run_partial [] [] wl wl_fair wl_tame h (.str 1) hg w' .refl
  refine ⟨x', r, ?_, h3⟩
  rw [h]
  exact h1

/-- The view of a condition: inserted components 7. -/
def cond : Cond (World Nat) (ViewErr Unit) := condFn fl (some 0) [.comp 7 false true .insertion] (fun _ => true)

/-- A workload with a condition on a tracking view is added without error, and no run of it gets past the condition: tracking
is enabled for the views of systems only. -/
theorem C77_condition_fails : ∃ wl' : Workload (World Nat) (ViewErr Unit), Built wl' ∧
    (addToWorld fl free (World.new : World Nat) Scheduler.empty wl').2.2 = .ok () ∧
    ∃ x, (addToWorld fl free (World.new : World Nat) Scheduler.empty wl').2.1.run (.str 1)
      (addToWorld fl free (World.new : World Nat) Scheduler.empty wl').1 = .ok (x, .error (.run (.str 1) (.trackingNotEnabled 7))) :=
  ⟨wl.addRunIf cond, .runIf _ wl_built, rfl, _, rfl⟩

/-- The same with a condition on a system. -/
theorem C77_system_condition_fails : ∃ wl' : Workload (World Nat) (ViewErr Unit), Built wl' ∧
    (addToWorld fl free (World.new : World Nat) Scheduler.empty wl').2.2 = .ok () ∧
    ∃ x, (addToWorld fl free (World.new : World Nat) Scheduler.empty wl').2.1.run (.str 1)
      (addToWorld fl free (World.new : World Nat) Scheduler.empty wl').1 = .ok (x, .error (.run (.system 1) (.trackingNotEnabled 7))) :=
  ⟨(Workload.new (.str 1)).withSystem (sysOf.addRunIf cond), .withSystem (.new (.str 1) trivial) (.runIf _ (.ofFn sysOf_ok)), rfl, _, rfl⟩

/-- Cloning the storages of another world into this one replaces a storage by one with the declared tracking only: the view of
the added workload is refused from then on. -/
theorem C77_clone_fails : ∃ o w' : World Nat, ∃ sch', addToWorld fl free (World.new : World Nat) Scheduler.empty wl = (w', sch', .ok ()) ∧
    ∃ x, sch'.run (.str 1) (o.cloneStoragesTo fl (fun _ v => v) w') = .ok (x, .error (.run (.system 1) (.trackingNotEnabled 6))) :=
  ⟨(World.new : World Nat).registerClone fl 6, _, _, rfl, _, rfl⟩

/-- A built workload run in a world where `apply_tracking` was not called: refused. -/
theorem C78_apply_fails : ∃ p i, build wl = .ok (p, i) ∧
    ∃ x, p.run (World.new : World Nat) = .ok (x, .error (.run (.system 1) (.trackingNotEnabled 5))) :=
  ⟨_, _, rfl, _, rfl⟩

def sysTwo : WSys (World Nat) (ViewErr Unit) := { sysOf with typeId := 2, name := .system 2, tags := [.system 2] }
theorem sysTwo_ok : ofParams fl 2 ps (some 0) (fun _ w => (w, (.ok () : Except Unit Unit))) = .ok sysTwo := rfl
/-- Another workload. -/
def wl2 : Workload (World Nat) (ViewErr Unit) := (Workload.new (.str 2)).withSystem sysTwo

/-- The hypotheses of `C79_result` are met by a scheduler with another workload, and the numbers the information uses for the
systems do depend on what was added before. -/
theorem C79_numbers_fail : ∃ i i', build wl = .ok i ∧ (Scheduler.add (Scheduler.empty.add wl2).1 wl).1.info (.str 1) = some i' ∧
    (Scheduler.empty.add wl2).1.contains wl.name = false ∧ (Scheduler.add (Scheduler.empty.add wl2).1 wl).2 = .ok () ∧ i.2 ≠ i' :=
  ⟨_, _, rfl, rfl, rfl, rfl, by decide⟩

theorem wl2_fair : Fair (fun _ => sysOf.fn) .system [RegOp.add wl2, RegOp.add wl] := by
  intro v hv
  have : v = wl2 ∨ v = wl := by simpa using hv
  rcases this with h | h
  · subst h
    refine ⟨.withSystem (.new (.str 2) trivial) (.ofFn sysTwo_ok), ?_, ?_⟩ <;>
    · intro s hs
      have : s = { sysTwo with uid := sysTwo.uid + 0 } := by simpa [wl2, Workload.withSystem, Workload.new] using hs
      subst this
      rfl
  · subst h
    refine ⟨wl_built, ?_, ?_⟩ <;>
    · intro s hs
      have : s = { sysOf with uid := sysOf.uid + 0 } := by simpa [wl, Workload.withSystem, Workload.new] using hs
      subst this
      rfl

/-- `C79_same_partial` on two worlds. -/
example (x : World Nat) : (Scheduler.after [RegOp.add wl2, RegOp.add wl]).run (.str 1) x = (Scheduler.after [RegOp.add wl]).run (.str 1) x := by
  have h1 := (C61_add_result [] (fun _ h => by cases h) wl wl_built rfl).1.mp rfl
  have h2 := (C61_add_result [] (fun _ h => by cases h) wl2
    (.withSystem (.new (.str 2) trivial) (.ofFn sysTwo_ok)) rfl).1.mp rfl
  have e1 : (Registry.after [RegOp.add wl]).get (.str 1) = some wl := by
    show (Registry.step Registry.empty (.add wl)).get (.str 1) = some wl
    unfold Registry.step
    dsimp only
    rw [if_pos ⟨rfl, h1⟩]
    rfl
  have e2 : (Registry.after [RegOp.add wl2, RegOp.add wl]).get (.str 1) = some wl := by
    show (Registry.step (Registry.step Registry.empty (.add wl2)) (.add wl)).get (.str 1) = some wl
    have : Registry.step Registry.empty (.add wl2) = { get := fun l => if l = .str 2 then some wl2 else none, default := some (.str 2) } := by
      unfold Registry.step
      dsimp only
      rw [if_pos ⟨rfl, h2⟩]
      rfl
    rw [this]
    unfold Registry.step
    dsimp only
    rw [if_pos ⟨rfl, h1⟩]
    rfl
  exact C79_same_partial _ _ wl2_fair wl_fair (.str 1) wl e2 e1 x

end Verif.Reg.Demo
