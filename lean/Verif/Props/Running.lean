import Verif.Lemmas.Registry
import Verif.Props.Workloads

/-!
# C59–C61: workloads of a world and sequential runs

The theorems are about every history of `add_to_world`, `set_default_workload` and `rename_workload` starting from a new
world. `Registry` (in `Spec/Registry.lean`) says what the history means for the user.
-/
namespace Verif.Sched

variable {W ε : Type} {fnOf : Nat → SysFn W ε} {nameOf : Nat → Label}

/-! ## C61: names and the default workload -/

/-- `contains_workload`. -/
theorem C61_contains (ops : List (RegOp W ε)) (h : AllBuilt ops) (l : Label) :
    (Scheduler.after ops).contains l = true ↔ (Registry.after ops).get l ≠ none := by
  obtain ⟨fnOf, nameOf, hs, _⟩ := simBy_after ops h
  rw [contains_iff]
  constructor
  · rintro ⟨b, hb⟩ hn
    rw [(hs.absent l).mpr hn] at hb
    cases hb
  · intro hn
    cases hb : (Scheduler.after ops).workload l with
    | none => exact absurd ((hs.absent l).mp hb) hn
    | some b => exact ⟨b, rfl⟩

/-- Adding under a name already used fails and changes nothing. -/
theorem C61_add_used (ops : List (RegOp W ε)) (h : AllBuilt ops) (w : Workload W ε)
    (hn : (Registry.after ops).get w.name ≠ none) :
    (Scheduler.after ops).add w = (Scheduler.after ops, .error (.err .alreadyExists)) := by
  have hc := (C61_contains ops h w.name).mpr hn
  unfold Scheduler.add createWorkload
  rw [if_pos hc]

/-- Adding under a free name succeeds exactly when the workload is buildable, and then the name gives that workload, and all
other names what they gave before. Otherwise nothing visible changes. -/
theorem C61_add_result (ops : List (RegOp W ε)) (h : AllBuilt ops) (w : Workload W ε) (hw : Built w)
    (hn : (Registry.after ops).get w.name = none) :
    (((Scheduler.after ops).add w).2 = .ok () ↔ Buildable w)
    ∧ ((Registry.after (ops ++ [.add w])).get w.name ≠ none ↔ Buildable w)
    ∧ (∀ l, l ≠ w.name → (Registry.after (ops ++ [.add w])).get l = (Registry.after ops).get l) := by
  have hfree : (Scheduler.after ops).contains w.name = false := by
    cases hc : (Scheduler.after ops).contains w.name with
    | false => rfl
    | true => exact absurd hn ((C61_contains ops h _).mp hc)
  have hr : Registry.after (ops ++ [.add w]) = (Registry.after ops).step (.add w) := by
    unfold Registry.after; rw [List.foldl_append]; rfl
  refine ⟨?_, ?_, ?_⟩
  · rcases add_cases hw (Scheduler.after ops) with ⟨hc, _⟩ | ⟨_, hb, e, he, _⟩ | ⟨_, hb, c, _, he, _⟩
    · rw [hfree] at hc; cases hc
    · rw [he]
      exact ⟨(fun h => by cases h), fun h => absurd h hb⟩
    · rw [he]
      exact ⟨fun _ => hb, fun _ => rfl⟩
  · rw [hr]
    unfold Registry.step
    dsimp only
    by_cases hb : Buildable w
    · rw [if_pos ⟨hn, hb⟩]
      simp [hb]
    · rw [if_neg (fun h => hb h.2)]
      simp [hb, hn]
  · intro l hl
    rw [hr]
    unfold Registry.step
    dsimp only
    split
    · simp [hl]
    · rfl

/-- `set_default_workload` fails exactly for unknown names. -/
theorem C61_set_default (ops : List (RegOp W ε)) (h : AllBuilt ops) (l : Label) :
    (Scheduler.after ops).setDefault l = none ↔ (Registry.after ops).get l = none := by
  have hc := C61_contains ops h l
  unfold Scheduler.setDefault
  cases hcc : (Scheduler.after ops).contains l with
  | true =>
    have := hc.mp hcc
    simp [this]
  | false =>
    have : (Registry.after ops).get l = none := by
      cases hg : (Registry.after ops).get l with
      | none => rfl
      | some w =>
        have := hc.mpr (by rw [hg]; simp)
        rw [hcc] at this; cases this
    simp [this]

/-- Running a workload: an unknown name is an error and nothing runs; a known one runs the condition of the workload and its
systems in an order that is a schedule of it. Nothing panics. For a system runs the function of its type, the same in all workloads,
which is the function of some system of that type that was added. -/
theorem C61_run (ops : List (RegOp W ε)) (h : AllBuilt ops) :
    ∃ (fnOf : Nat → SysFn W ε) (nameOf : Nat → Label),
    (∀ w, .add w ∈ ops → ∀ s ∈ w.systems, ∃ v t, .add v ∈ ops ∧ t ∈ v.systems ∧ t.typeId = s.typeId
      ∧ t.fn = fnOf s.typeId ∧ t.name = nameOf s.typeId)
    ∧ ∀ (l : Label) (w0 : W), match (Registry.after ops).get l with
      | none => (Scheduler.after ops).run l w0 = .ok (w0, .error .missing)
      | some w => Built w ∧ Buildable w ∧ ∃ plan, Schedule w plan
          ∧ ∀ x, (Scheduler.after ops).run l x = .ok (runAll l w.runIf (w.inOrderBy fnOf nameOf plan) x) := by
  obtain ⟨fnOf, nameOf, hs, ho⟩ := simBy_after ops h
  refine ⟨fnOf, nameOf, ho, fun l w0 => ?_⟩
  cases hg : (Registry.after ops).get l with
  | none =>
    dsimp only
    unfold Scheduler.run
    rw [(hs.absent l).mpr hg]
  | some w =>
    dsimp only
    cases hb : (Scheduler.after ops).workload l with
    | none => rw [(hs.absent l).mp hb] at hg; cases hg
    | some b =>
      obtain ⟨h1, _, h4, plan, _, hr⟩ := hs.present l b w hb hg
      refine ⟨h1, h4, plan, hr.schedule, ?_⟩
      intro x
      unfold Scheduler.run
      rw [hb]
      exact runBatches_val hr l x

/-- When each type stands for one function, as it does for functions and for closures that capture nothing, the functions that run
are those of the systems. -/
theorem C61_run_own (ops : List (RegOp W ε)) (h : Fair fnOf nameOf ops) (l : Label) (w0 : W) :
    match (Registry.after ops).get l with
    | none => (Scheduler.after ops).run l w0 = .ok (w0, .error .missing)
    | some w => Built w ∧ Buildable w ∧ ∃ plan, Schedule w plan
        ∧ ∀ x, (Scheduler.after ops).run l x = .ok (runAll l w.runIf (w.inOrder plan) x) := by
  have hs := sim_after ops h
  cases hg : (Registry.after ops).get l with
  | none =>
    dsimp only
    unfold Scheduler.run
    rw [(hs.absent l).mpr hg]
  | some w =>
    dsimp only
    cases hb : (Scheduler.after ops).workload l with
    | none => rw [(hs.absent l).mp hb] at hg; cases hg
    | some b =>
      obtain ⟨h1, _, h4, plan, _, hr⟩ := hs.present l b w hb hg
      refine ⟨h1, h4, plan, hr.schedule, ?_⟩
      intro x
      unfold Scheduler.run
      rw [hb]
      exact runBatches_ok hr l x

/-- Running the default workload: nothing when there is no workload; otherwise the default one, which always exists. -/
theorem C61_run_default (ops : List (RegOp W ε)) (h : AllBuilt ops) (w0 : W) :
    match (Registry.after ops).default with
    | none => (Scheduler.after ops).runDefault w0 = .ok (w0, .ok ())
    | some d => (Registry.after ops).get d ≠ none ∧ (Scheduler.after ops).runDefault w0 = (Scheduler.after ops).run d w0 := by
  obtain ⟨fnOf, nameOf, hs, _⟩ := simBy_after ops h
  cases hd : (Registry.after ops).default with
  | none =>
    dsimp only
    unfold Scheduler.runDefault
    rw [hs.empty.mpr hd]
    rfl
  | some d =>
    dsimp only
    obtain ⟨g1, g2⟩ := hs.default d hd
    refine ⟨g2, ?_⟩
    have hne : (Scheduler.after ops).workloads.isEmpty = false := by
      cases hws : (Scheduler.after ops).workloads with
      | nil => rw [hs.empty.mp hws] at hd; cases hd
      | cons _ _ => rfl
    unfold Scheduler.runDefault Scheduler.run Scheduler.defaultWorkload
    rw [hne, g1]
    cases hb : (Scheduler.after ops).workload d with
    | none => exact absurd ((hs.absent d).mp hb) g2
    | some b => rfl

/-- The default workload is the first one added, until it is set. -/
theorem C61_default_first (ops : List (RegOp W ε)) (w : Workload W ε) (h : AllBuilt (ops ++ [.add w]))
    (hb : Buildable w) (hn : (Registry.after ops).get w.name = none) (x : W) :
    (Scheduler.after (ops ++ [.add w])).runDefault x = (Scheduler.after (ops ++ [.add w])).run
      (match (Registry.after ops).default with | some d => d | none => w.name) x := by
  have hr : (Registry.after (ops ++ [.add w])).default
      = match (Registry.after ops).default with | some d => some d | none => some w.name := by
    unfold Registry.after
    rw [List.foldl_append]
    show ((Registry.after ops).step (.add w)).default = _
    unfold Registry.step
    dsimp only
    rw [if_pos ⟨hn, hb⟩]
    rfl
  have hd := C61_run_default _ h x
  rw [hr] at hd
  cases hdd : (Registry.after ops).default with
  | none => rw [hdd] at hd; exact hd.2
  | some d => rw [hdd] at hd; exact hd.2

/-- After `set_default_workload` of a known name, that one is the default. -/
theorem C61_default_set (ops : List (RegOp W ε)) (l : Label) (h : AllBuilt (ops ++ [.setDefault l]))
    (hn : (Registry.after ops).get l ≠ none) (x : W) :
    (Scheduler.after (ops ++ [.setDefault l])).runDefault x = (Scheduler.after (ops ++ [.setDefault l])).run l x := by
  have hr : (Registry.after (ops ++ [.setDefault l])).default = some l := by
    unfold Registry.after
    rw [List.foldl_append]
    show ((Registry.after ops).step (.setDefault l)).default = _
    unfold Registry.step
    dsimp only
    rw [if_neg hn]
  have hd := C61_run_default _ h x
  rw [hr] at hd
  exact hd.2

/-- `rename_workload` keeps the systems and the default: the new name runs what the old one ran, other names what they ran, the
old name is unknown, and the default workload is the same one. -/
theorem C61_rename (ops : List (RegOp W ε)) (old new : Label) (h : AllBuilt (ops ++ [.rename old new]))
    (w : Workload W ε) (hw : (Registry.after ops).get old = some w) :
    (Scheduler.after (ops ++ [.rename old new])).workload new = (Scheduler.after ops).workload old
    ∧ (∀ l, l ≠ old → l ≠ new → (Scheduler.after (ops ++ [.rename old new])).workload l = (Scheduler.after ops).workload l)
    ∧ (old ≠ new → (Scheduler.after (ops ++ [.rename old new])).contains old = false)
    ∧ (Scheduler.after (ops ++ [.rename old new])).systems = (Scheduler.after ops).systems
    ∧ ∀ d, (Registry.after ops).default = some d → ∀ x, (Scheduler.after (ops ++ [.rename old new])).runDefault x
        = (Scheduler.after (ops ++ [.rename old new])).run (if d = old then new else d) x := by
  have hf : AllBuilt ops := fun v hv => h v (by simp [hv])
  obtain ⟨fnOf, nameOf, hs, _⟩ := simBy_after ops hf
  have es : Scheduler.after (ops ++ [.rename old new]) = (Scheduler.after ops).rename old new := by
    unfold Scheduler.after; rw [List.foldl_append]; rfl
  cases hb : (Scheduler.after ops).workload old with
  | none => rw [(hs.absent old).mp hb] at hw; cases hw
  | some b =>
    have hwl := rename_workload (new := new) hb
    refine ⟨?_, ?_, ?_, ?_, ?_⟩
    · rw [es, hwl]; simp
    · intro l h1 h2
      rw [es, hwl]; simp [h1, h2]
    · intro hne
      cases hc : (Scheduler.after (ops ++ [.rename old new])).contains old with
      | false => rfl
      | true =>
        obtain ⟨b', hb'⟩ := (contains_iff _ _).mp hc
        rw [es, hwl] at hb'
        simp [hne] at hb'
    · rw [es]
      unfold Scheduler.rename
      rw [hb]
    · intro d hd x
      have hr : (Registry.after (ops ++ [.rename old new])).default = some (if d = old then new else d) := by
        unfold Registry.after
        rw [List.foldl_append]
        show ((Registry.after ops).step (.rename old new)).default = _
        unfold Registry.step
        dsimp only
        rw [hw]
        dsimp only
        rw [hd]
        by_cases h1 : d = old <;> simp [h1]
      have hdd := C61_run_default _ h x
      rw [hr] at hdd
      exact hdd.2

/-- Two workloads. -/
def otherDemo : Workload Nat Unit := (Workload.new (.str 2)).withSystem (Ex.sys 9 [])

def nameDemo : Nat → Label := Label.system

theorem fairDemo : Fair Ex.fnOf nameDemo [.add Ex.demo, .add otherDemo, .rename (.str 1) (.str 3), .setDefault (.str 2)] := by
  intro w hw
  simp only [List.mem_cons, reduceCtorEq, RegOp.add.injEq, List.not_mem_nil, or_false] at hw
  rcases hw with rfl | rfl
  · refine ⟨Ex.demo_built, Ex.demo_oneFn, ?_⟩
    intro s hs
    have : s ∈ [Ex.sys 1 [Ex.viewMut 5], { Ex.sys 2 [Ex.view 5] with uid := 1 },
      { Ex.sys 3 [Ex.view 5, Ex.viewMut 6] with uid := 2 },
      { (Ex.sys 4 [Ex.mainThread 7]).addBeforeAll (.system 1) with uid := 3 }] := hs
    simp only [List.mem_cons, List.not_mem_nil, or_false] at this
    rcases this with rfl | rfl | rfl | rfl <;> rfl
  · refine ⟨.withSystem (.new _ trivial) (Ex.sys_fresh _ _ rfl), ?_, ?_⟩
    · intro s hs
      have : s ∈ [Ex.sys 9 []] := hs
      simp only [List.mem_cons, List.not_mem_nil, or_false] at this
      subst this; rfl
    · intro s hs
      have : s ∈ [Ex.sys 9 []] := hs
      simp only [List.mem_cons, List.not_mem_nil, or_false] at this
      subst this; rfl

example : ((Scheduler.after [.add Ex.demo, .add otherDemo, .rename (.str 1) (.str 3), .setDefault (.str 2)]).run (.str 3) 100).toOption.map
    (·.1) = some 110 := by rfl

example : ((Scheduler.after [.add Ex.demo, .add otherDemo, .rename (.str 1) (.str 3), .setDefault (.str 2)]).runDefault 100).toOption.map
    (·.1) = some 109 := by rfl

/-- Finding: renaming a workload to the name of another one silently removes the other one. -/
theorem C61_rename_overwrites_fails :
    let ops : List (RegOp Nat Unit) := [.add Ex.demo, .add otherDemo]
    ((Scheduler.after ops).run (.str 2) 100).toOption.map (·.1) = some 109
    ∧ ((Scheduler.after (ops ++ [.rename (.str 1) (.str 2)])).run (.str 2) 100).toOption.map (·.1) = some 110 := by
  exact ⟨rfl, rfl⟩

/-- Finding: an error other than "already exists" leaves the systems of the refused workload in the world. -/
theorem C61_failed_add_leaves_systems_fails :
    ((Scheduler.empty : Scheduler Nat Unit).add loopDemo).1.systems.length = 2 := by rfl

/-! ## C59 and C60: what a run does -/

/-- A system runs when its condition holds, does nothing when it does not, and its errors carry its name. -/
theorem C59_system (j : NamedJob W ε) (w : W) :
    (∀ w', evalC j.2 w = (w', .ok false) → runJob j w = (w', .ok ()))
    ∧ (∀ w', evalC j.2 w = (w', .ok true) → (runJob j w).1 = (j.1.2 w').1
        ∧ ((runJob j w).2 = .ok () ↔ (j.1.2 w').2 = .ok ())) := by
  refine ⟨?_, ?_⟩
  · intro w' h
    unfold runJob
    rw [h]
  · intro w' h
    unfold runJob
    rw [h]
    dsimp only
    rcases j.1.2 w' with ⟨w'', e | x⟩
    · exact ⟨rfl, ⟨(fun h => by cases h), (fun h => by cases h)⟩⟩
    · exact ⟨rfl, ⟨fun _ => rfl, fun _ => rfl⟩⟩

/-- A workload whose condition is false runs no system. -/
theorem C59_workload_false (ops : List (RegOp W ε)) (h : AllBuilt ops) (l : Label) (w : Workload W ε) (w0 w1 : W)
    (hg : (Registry.after ops).get l = some w) (hc : evalC w.runIf w0 = (w1, .ok false)) :
    (Scheduler.after ops).run l w0 = .ok (w1, .ok ()) := by
  obtain ⟨_, _, _, this⟩ := C61_run ops h
  have := this l w0
  rw [hg] at this
  obtain ⟨_, _, plan, _, hr⟩ := this
  rw [hr]
  unfold runAll
  rw [hc]

/-- A sequential run that fails: the systems before the failing one have run without error, the failing one gave the error,
the ones after have not run. -/
theorem C60_first_error (jobs : List (NamedJob W ε)) : ∀ (w w' : W) (e : RunErr ε), runJobs jobs w = (w', .error e) →
    ∃ pre j post w1, jobs = pre ++ j :: post ∧ runJobs pre w = (w1, .ok ()) ∧ runJob j w1 = (w', .error e) := by
  induction jobs with
  | nil => intro w w' e h; cases h
  | cons j rest ih =>
    intro w w' e h
    unfold runJobs at h
    cases hj : runJob j w with
    | mk w1 r =>
      rw [hj] at h
      cases r with
      | error e' =>
        cases h
        exact ⟨[], j, rest, w, rfl, rfl, hj⟩
      | ok u =>
        obtain ⟨pre, k, post, w2, rfl, h1, h2⟩ := ih w1 w' e h
        refine ⟨j :: pre, k, post, w2, rfl, ?_, h2⟩
        unfold runJobs
        rw [hj]
        exact h1

/-- The error of a system carries the name of that system, and is its own error or the one of its condition. -/
theorem C60_named {j : NamedJob W ε} {w w' : W} {e : RunErr ε} (h : runJob j w = (w', .error e)) :
    ∃ x, e = .run j.1.1 x ∧ (evalC j.2 w = (w', .error x) ∨ ∃ w1, evalC j.2 w = (w1, .ok true) ∧ j.1.2 w1 = (w', .error x)) := by
  unfold runJob at h
  cases hc : evalC j.2 w with
  | mk w1 r =>
    rw [hc] at h
    rcases r with x | (_ | _)
    · cases h; exact ⟨x, rfl, .inl rfl⟩
    · cases h
    · dsimp only at h
      cases hf : j.1.2 w1 with
      | mk w2 q =>
        rw [hf] at h
        cases q with
        | error x => cases h; exact ⟨x, rfl, .inr ⟨w1, rfl, hf⟩⟩
        | ok u => cases h

/-- A run that succeeds went through all systems. -/
theorem C60_ok_all (jobs : List (NamedJob W ε)) : ∀ (w w' : W), runJobs jobs w = (w', .ok ()) →
    ∀ pre j post, jobs = pre ++ j :: post → ∃ w1 w2, runJobs pre w = (w1, .ok ()) ∧ runJob j w1 = (w2, .ok ()) := by
  induction jobs with
  | nil => intro w w' _ pre j post h; simp at h
  | cons k rest ih =>
    intro w w' h pre j post he
    unfold runJobs at h
    cases hj : runJob k w with
    | mk w1 r =>
      rw [hj] at h
      cases r with
      | error e => cases h
      | ok u =>
        cases pre with
        | nil =>
          cases he
          exact ⟨w, w1, rfl, hj⟩
        | cons p pre =>
          cases he
          obtain ⟨a, b, h1, h2⟩ := ih w1 w' h pre j post rfl
          refine ⟨a, b, ?_, h2⟩
          unfold runJobs
          rw [hj]
          exact h1

/-- Workload level: if the run fails, either its condition failed, or exactly one system of it failed, after all the systems before it
in the schedule. For a system runs the function of its type, as in `C61_run`. -/
theorem C60_sequential (ops : List (RegOp W ε)) (h : AllBuilt ops) (l : Label) (w : Workload W ε) (w0 w' : W)
    (e : RunErr ε) (hg : (Registry.after ops).get l = some w) (hr : (Scheduler.after ops).run l w0 = .ok (w', .error e)) :
    (∃ x, e = .run l x ∧ evalC w.runIf w0 = (w', .error x)) ∨
    ∃ (fnOf : Nat → SysFn W ε) (nameOf : Nat → Label),
    (∀ w, .add w ∈ ops → ∀ s ∈ w.systems, ∃ v t, .add v ∈ ops ∧ t ∈ v.systems ∧ t.typeId = s.typeId
      ∧ t.fn = fnOf s.typeId ∧ t.name = nameOf s.typeId)
    ∧ ∃ plan, Schedule w plan ∧ ∃ w1, evalC w.runIf w0 = (w1, .ok true) ∧ ∃ pre j post w2,
      w.inOrderBy fnOf nameOf plan = pre ++ j :: post ∧ runJobs pre w1 = (w2, .ok ()) ∧ runJob j w2 = (w', .error e) := by
  obtain ⟨fnOf, nameOf, ho, this⟩ := C61_run ops h
  have := this l w0
  rw [hg] at this
  obtain ⟨_, _, plan, hp, hrun⟩ := this
  rw [hrun] at hr
  unfold runAll at hr
  cases hc : evalC w.runIf w0 with
  | mk w1 r =>
    rw [hc] at hr
    rcases r with x | (_ | _)
    · cases hr; exact .inl ⟨x, rfl, rfl⟩
    · cases hr
    · dsimp only at hr
      have hr' : runJobs (w.inOrderBy fnOf nameOf plan) w1 = (w', .error e) := by injection hr
      obtain ⟨pre, j, post, w2, h1, h2, h3⟩ := C60_first_error _ _ _ _ hr'
      exact .inr ⟨fnOf, nameOf, ho, plan, hp, w1, rfl, pre, j, post, w2, h1, h2, h3⟩

/-- The same when each type stands for one function: the functions that run are those of the systems. -/
theorem C60_sequential_own (ops : List (RegOp W ε)) (h : Fair fnOf nameOf ops) (l : Label) (w : Workload W ε) (w0 w' : W)
    (e : RunErr ε) (hg : (Registry.after ops).get l = some w) (hr : (Scheduler.after ops).run l w0 = .ok (w', .error e)) :
    (∃ x, e = .run l x ∧ evalC w.runIf w0 = (w', .error x)) ∨
    ∃ plan, Schedule w plan ∧ ∃ w1, evalC w.runIf w0 = (w1, .ok true) ∧ ∃ pre j post w2,
      w.inOrder plan = pre ++ j :: post ∧ runJobs pre w1 = (w2, .ok ()) ∧ runJob j w2 = (w', .error e) := by
  have := C61_run_own ops h l w0
  rw [hg] at this
  obtain ⟨_, _, plan, hp, hrun⟩ := this
  rw [hrun] at hr
  unfold runAll at hr
  cases hc : evalC w.runIf w0 with
  | mk w1 r =>
    rw [hc] at hr
    rcases r with x | (_ | _)
    · cases hr; exact .inl ⟨x, rfl, rfl⟩
    · cases hr
    · dsimp only at hr
      have hr' : runJobs (w.inOrder plan) w1 = (w', .error e) := by injection hr
      obtain ⟨pre, j, post, w2, h1, h2, h3⟩ := C60_first_error _ _ _ _ hr'
      exact .inr ⟨plan, hp, w1, rfl, pre, j, post, w2, h1, h2, h3⟩

/-- A system that fails after system 1, and before system 3 which writes the same storage. -/
def failDemo : Workload Nat Unit :=
  (((Workload.new (.str 1)).withSystem (Ex.sys 1 [Ex.viewMut 5])).withSystem
    { Ex.sys 2 [Ex.viewMut 5] with fn := fun w => (w + 1000, .error ()) }).withSystem (Ex.sys 3 [Ex.viewMut 5])

example : ((Scheduler.after [.add failDemo]).run (.str 1) 0).toOption.map (fun r => (r.1, match r.2 with
    | .error (.run n _) => some n | _ => none)) = some (1001, some (.system 2)) := by rfl

/-- Finding: the name in an error is the name under which the function was first added to the world: with another
`display_name` for the same function in a later workload, the error carries the wrong name. -/
theorem C60_name_fails :
    let fail : WSys Nat Unit := { Ex.sys 2 [] with fn := fun w => (w, .error ()) }
    let a := (Workload.new (.str 1)).withSystem (fail.displayName (.str 10))
    let b := (Workload.new (.str 2)).withSystem (fail.displayName (.str 20))
    ((Scheduler.after [.add a, .add b]).run (.str 2) 0).toOption.map (fun r => match r.2 with
      | .error (.run n _) => some n | _ => none) = some (some (.str 10)) := by rfl

end Verif.Sched
