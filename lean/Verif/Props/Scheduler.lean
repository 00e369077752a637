import Verif.Lemmas.Created

/-!
# C49–C55, C58: building workloads

Systems are named by their position in the workload's list of systems. `Built`, `Explicit`, `Implicit`, `Conflicts`, … are
in `Spec/Schedule.lean`.
-/
namespace Verif.Sched

variable {W ε : Type}

open Relation (TransGen)

/-! ## Concrete workloads for the examples -/

namespace Ex

/-- Worlds are numbers, there are no errors. -/
abbrev S := WSys Nat Unit
abbrev Wl := Workload Nat Unit

def view (s : Nat) : TypeInfo := { storage := s, exclusive := false, threadSafe := true }
def viewMut (s : Nat) : TypeInfo := { storage := s, exclusive := true, threadSafe := true }
def mainThread (s : Nat) : TypeInfo := { storage := s, exclusive := true, threadSafe := false }

/-- The system of type `t` that adds `t` to the world. -/
def sys (t : Nat) (bs : List TypeInfo) : S :=
  { typeId := t, name := .system t, fn := fun w => (w + t, .ok ()), borrows := bs, tracking := [], runIf := none, tags := [.system t],
    beforeAll := [], afterAll := [], after := [], before := [], uid := 0, reqIn := [], reqBefore := [], reqAfter := [] }

theorem sys_fresh (t : Nat) (bs : List TypeInfo) (h : checkBorrows bs = .ok ()) : Fresh (sys t bs) := by
  refine .ofFn (t := t) (bs := bs) (f := fun w => (w + t, .ok ())) (tr := []) ?_
  unfold WSys.ofFn
  rw [h]; rfl

/-- Four systems: 1 writes storage 5, 2 reads it, 3 reads it too, 4 is on the main thread and asks to run before 1. -/
def demo : Wl :=
  ((((Workload.new (.str 1)).withSystem (sys 1 [viewMut 5])).withSystem (sys 2 [view 5])).withSystem
    (sys 3 [view 5, viewMut 6])).withSystem ((sys 4 [mainThread 7]).addBeforeAll (.system 1))

theorem demo_built : Built demo :=
  .withSystem (.withSystem (.withSystem (.withSystem (.new _ trivial) (sys_fresh _ _ rfl)) (sys_fresh _ _ rfl))
    (sys_fresh _ _ rfl)) (.beforeAll _ trivial (sys_fresh _ _ rfl))

/-- The function of each type. -/
def fnOf (t : Nat) : SysFn Nat Unit := fun w => (w + t, .ok ())

theorem demo_oneFn : OneFn fnOf demo := by
  intro s hs
  have : s ∈ [sys 1 [viewMut 5], { sys 2 [view 5] with uid := 1 }, { sys 3 [view 5, viewMut 6] with uid := 2 },
    { (sys 4 [mainThread 7]).addBeforeAll (.system 1) with uid := 3 }] := hs
  simp only [List.mem_cons, List.not_mem_nil, or_false] at this
  rcases this with rfl | rfl | rfl | rfl <;> rfl

theorem demo_sequential : (createWorkload Scheduler.empty demo).toOption.map (fun c => c.batches.sequential)
    = some [3, 0, 1, 2] := by rfl

theorem demo_parallel : (createWorkload Scheduler.empty demo).toOption.map (fun c => c.batches.parallel)
    = some [(some 3, []), (none, [0]), (none, [1, 2])] := by rfl

theorem demo_plan : (createWorkload Scheduler.empty demo).toOption.map (fun c => c.plan)
    = some [(3, 0), (0, 1), (1, 2), (2, 2)] := by rfl

theorem demo_ok : ∃ c, createWorkload Scheduler.empty demo = .ok c ∧ c.plan = [(3, 0), (0, 1), (1, 2), (2, 2)] := by
  have h := demo_plan
  cases hc : createWorkload Scheduler.empty demo with
  | error e => rw [hc] at h; cases h
  | ok c =>
    rw [hc] at h
    exact ⟨c, rfl, Option.some.inj h⟩

theorem empty_ok : (Scheduler.empty : Scheduler Nat Unit).Ok fnOf := by
  intro p hp; cases hp

end Ex

/-! ## C49: every system exactly once -/

/-- The positions in the schedule are the systems of the workload, each exactly once. -/
theorem C49_each_system_once {w : Workload W ε} (hw : Built w) {sch : Scheduler W ε} {c : Created W ε}
    (h : createWorkload sch w = .ok c) :
    (c.plan.map (·.1)).Perm (List.range w.systems.length) := by
  obtain ⟨_, _, ss, o, rfl, hg, ho⟩ := created hw.wf h
  have hp := ho.perm
  rw [hg.len] at hp
  have : (made sch w o).plan.map (·.1) = o.placed := by
    unfold Created.plan Order.placed
    rw [List.map_map]; rfl
  rw [this]
  exact hp

/-- The stored sequential order runs, at each place, the function and the condition of the system at that place of the
schedule. -/
theorem C49_sequential_partial {fnOf : Nat → SysFn W ε} {w : Workload W ε} (hw : Built w) (hfn : OneFn fnOf w)
    {sch : Scheduler W ε} (hok : sch.Ok fnOf) {c : Created W ε} (h : createWorkload sch w = .ok c) :
    c.batches.sequential.length = c.batches.sequentialRunIf.length
    ∧ c.batches.seqJobs c.sch.systems = c.plan.map fun p => w.job p.1 := by
  obtain ⟨_, _, ss, o, rfl, hg, ho⟩ := created hw.wf h
  refine ⟨?_, seqJobs_ok (table_fn hok hfn) hg ho⟩
  have h1 := congrArg List.length ho.seqIf
  have h2 := congrArg List.length ho.seq
  simp only [List.length_map] at h1 h2
  exact h2.trans h1.symm

/-- Each stored parallel batch runs precisely the systems the schedule puts in it, and every system is in one of the
batches. -/
theorem C49_parallel_partial {fnOf : Nat → SysFn W ε} {w : Workload W ε} (hw : Built w) (hfn : OneFn fnOf w)
    {sch : Scheduler W ε} (hok : sch.Ok fnOf) {c : Created W ε} (h : createWorkload sch w = .ok c) :
    c.batches.parallel.length = c.batches.parallelRunIf.length
    ∧ (∀ p ∈ c.plan, p.2 < c.batches.parallel.length)
    ∧ ∀ k, k < c.batches.parallel.length → ∃ jobs, (c.batches.parJobs c.sch.systems)[k]? = some jobs
        ∧ jobs.Perm ((c.plan.filter fun p => p.2 == k).map fun p => w.job p.1) := by
  obtain ⟨_, _, ss, o, rfl, hg, ho⟩ := created hw.wf h
  refine ⟨?_, ?_, ?_⟩
  · have h1 := congrArg List.length ho.parIf
    simp only [List.length_map] at h1
    exact ho.par.trans h1.symm
  · intro p hp
    obtain ⟨q, hq, rfl⟩ := List.mem_map.mp hp
    have := ho.bound q hq
    show q.1 < o.parallel.length
    rw [ho.par]
    exact this
  · intro k hk
    exact batchJobs_ok (table_fn hok hfn) hg ho hk

/-- The batches read in order agree with the sequential order: a system of an earlier batch is earlier. -/
theorem C49_batches_agree {w : Workload W ε} (hw : Built w) {sch : Scheduler W ε} {c : Created W ε}
    (h : createWorkload sch w = .ok c) : c.plan.Pairwise fun p q => p.2 ≤ q.2 := by
  obtain ⟨_, _, ss, o, rfl, hg, ho⟩ := created hw.wf h
  unfold Created.plan
  rw [List.pairwise_map]
  exact ho.mono

/-- The workload's condition is stored as it is. -/
theorem C49_workload_condition {w : Workload W ε} (hw : Built w) {sch : Scheduler W ε} {c : Created W ε}
    (h : createWorkload sch w = .ok c) : c.batches.workloadRunIf = w.runIf := by
  obtain ⟨_, _, ss, o, rfl, hg, ho⟩ := created hw.wf h
  rfl

/-- Adding a workload keeps the table of functions right for the next one. -/
theorem C49_table {fnOf : Nat → SysFn W ε} {w : Workload W ε} (hfn : OneFn fnOf w)
    {sch : Scheduler W ε} (hok : sch.Ok fnOf) : (sch.add w).1.Ok fnOf := by
  have h1 := (insertSystems_fn w.systems sch hok hfn).1
  unfold Scheduler.add
  split
  · rename_i c hc
    have : c.sch.lookup = (insertSystems sch w.systems).1.lookup ∧ c.sch.systems = (insertSystems sch w.systems).1.systems := by
      unfold createWorkload at hc
      split at hc
      · cases hc
      · simp only [bind, Except.bind] at hc
        repeat' split at hc
        all_goals first | cases hc | skip
        exact ⟨rfl, rfl⟩
    intro p hp
    replace hp : p ∈ c.sch.lookup := hp
    show c.sch.systems[p.2]? = _
    rw [this.1] at hp
    rw [this.2]
    exact h1 p hp
  · exact hok
  · exact h1

example : ∃ c, createWorkload Scheduler.empty Ex.demo = .ok c
    ∧ (c.plan.map (·.1)).Perm [0, 1, 2, 3] ∧ c.batches.seqJobs c.sch.systems = c.plan.map fun p => Ex.demo.job p.1 :=
  let ⟨c, hc, _⟩ := Ex.demo_ok
  ⟨c, hc, C49_each_system_once Ex.demo_built hc, (C49_sequential_partial Ex.demo_built Ex.demo_oneFn Ex.empty_ok hc).2⟩

/-- Two systems with one `TypeId` and different functions, e.g. closures of one type with different captures. -/
def twoClosures : Workload Nat Unit :=
  ((Workload.new (.str 1)).withSystem (Ex.sys 1 [])).withSystem { Ex.sys 1 [] with fn := fun w => (w * 10, .ok ()) }

/-- Finding: functions are identified by their `TypeId` only, so with two capturing closures of one type the first
one runs twice and the second one never. -/
theorem C49_sequential_fails : Built twoClosures ∧
    (createWorkload Scheduler.empty twoClosures).toOption.map (fun c => (c.batches.sequential, c.sch.systems.length))
      = some ([0, 0], 1) := by
  refine ⟨.withSystem (.withSystem (.new _ trivial) (Ex.sys_fresh _ _ rfl)) ?_, rfl⟩
  exact .ofFn (t := 1) (bs := []) (f := fun w => (w * 10, .ok ())) rfl

/-! ## C50: systems of one batch never conflict -/

theorem C50_batch_no_conflict {w : Workload W ε} (hw : Built w) {sch : Scheduler W ε} {c : Created W ε}
    (h : createWorkload sch w = .ok c) {a b k : Nat} {x y : WSys W ε} (hab : a ≠ b)
    (ha : c.inBatch a k) (hb : c.inBatch b k) (hx : w.systems[a]? = some x) (hy : w.systems[b]? = some y) :
    ¬ Conflicts x y := by
  obtain ⟨_, _, ss, o, rfl, hg, ho⟩ := created hw.wf h
  obtain ⟨p, hp, hpe⟩ := List.mem_map.mp ha
  obtain ⟨q, hq, hqe⟩ := List.mem_map.mp hb
  cases hpe
  have q1 : q.2.uid = b := congrArg Prod.fst hqe
  have q2 : q.1 = p.1 := congrArg Prod.snd hqe
  obtain ⟨s, _, hs, _, _, e1, _⟩ := entry hg ho hp
  obtain ⟨t, _, ht, _, _, e2, _⟩ := entry hg ho hq
  rw [hx] at hs; cases hs
  rw [q1, hy] at ht; cases ht
  rw [conflicts_iff, ← e1, ← e2]
  have hsep : ∀ (p q : Nat × Sys W ε), p ∈ o.trace → q ∈ o.trace → p ≠ q → p.1 = q.1 →
      conflict p.2.borrows q.2.borrows = false := by
    intro p q hp hq hne he
    obtain ⟨i, hi, ei⟩ := List.mem_iff_getElem.mp hp
    obtain ⟨j, hj, ej⟩ := List.mem_iff_getElem.mp hq
    have hpw := List.pairwise_iff_getElem.mp ho.sep
    rcases Nat.lt_trichotomy i j with hij | hij | hij
    · have := hpw i j hi hj hij (by rw [ei, ej]; exact he)
      rw [ei, ej, conflict_symm] at this
      exact this
    · subst hij
      exact absurd (ei.symm.trans ej) hne
    · have := hpw j i hj hi hij (by rw [ei, ej]; exact he.symm)
      rw [ei, ej] at this
      exact this
  rw [hsep p q hp hq (by rintro rfl; exact hab q1) q2.symm]
  simp

example : ∃ c, createWorkload Scheduler.empty Ex.demo = .ok c ∧ c.inBatch 1 2 ∧ c.inBatch 2 2 :=
  let ⟨c, hc, hp⟩ := Ex.demo_ok
  ⟨c, hc, by unfold Created.inBatch; rw [hp]; simp, by unfold Created.inBatch; rw [hp]; simp⟩

/-! ## C51: explicit constraints -/

theorem C51_explicit_order {w : Workload W ε} (hw : Built w) {sch : Scheduler W ε} {c : Created W ε}
    (h : createWorkload sch w = .ok c) {a b : Nat} (he : Explicit w a b) :
    c.earlier a b ∧ ∃ ka kb, c.inBatch a ka ∧ c.inBatch b kb ∧ ka < kb := by
  obtain ⟨_, _, ss, o, rfl, hg, ho⟩ := created hw.wf h
  obtain ⟨h1, h2⟩ := edge_earlier hg ho (.inl he)
  exact ⟨h1, h2 (.inl he)⟩

/-- A system is in one batch only, so "strictly earlier batch" is about all its batches. -/
theorem C51_one_batch {w : Workload W ε} (hw : Built w) {sch : Scheduler W ε} {c : Created W ε}
    (h : createWorkload sch w = .ok c) {a k k' : Nat} (h1 : c.inBatch a k) (h2 : c.inBatch a k') : k = k' := by
  obtain ⟨_, _, ss, o, rfl, hg, ho⟩ := created hw.wf h
  exact inBatch_unique ho h1 h2

example : Explicit Ex.demo 3 0 := .beforeAll (l := .system 1) rfl rfl (by decide) (by decide) (by decide)

example : Explicit ((Ex.demo.withBarrier).withSystem (Ex.sys 5 [])) 2 4 :=
  .barrier (k := 4) (by decide) (by decide) (by decide) (by decide)

/-- The second argument of `append` keeps its barriers and loses its systems. -/
def leftover : Workload Nat Unit := ((Workload.new (.str 2)).append Ex.demo.withBarrier.withBarrier).2

/-- Finding: adding it to the world panics (slice index out of range). -/
theorem C51_append_leftover_fails :
    (match createWorkload (Scheduler.empty : Scheduler Nat Unit) leftover with
      | .error (.fault .panic) => true | _ => false) = true := by rfl

/-- Finding: `Workload::into_sequential_workload` adds constraints on labels no system carries: the systems are still in
one batch. -/
def sequentialDemo : Workload Nat Unit :=
  (((Workload.new (.str 1)).withSystem (Ex.sys 1 [])).withSystem (Ex.sys 2 []))

theorem C51_into_sequential_fails : ∃ w, sequentialDemo.intoSequential = .ok w ∧ Built w ∧
    (createWorkload Scheduler.empty w).toOption.map (fun c => c.batches.parallel) = some [(none, [0, 1])] := by
  refine ⟨_, rfl, ?_, rfl⟩
  exact .intoSequential (w := sequentialDemo) (.withSystem (.withSystem (.new (.str 1) trivial) (Ex.sys_fresh _ _ rfl)) (Ex.sys_fresh _ _ rfl)) rfl

/-! ## C52: insertion order -/

/-- Systems without `before_all`/`after_all` are in insertion order in the sequential order. -/
theorem C52_insertion_order {w : Workload W ε} (hw : Built w) {sch : Scheduler W ε} {c : Created W ε}
    (h : createWorkload sch w = .ok c) {a b : Nat} (hi : Implicit w a b) : c.earlier a b := by
  obtain ⟨_, _, ss, o, rfl, hg, ho⟩ := created hw.wf h
  exact before_earlier hg ho (.inr hi)

/-- If they conflict, the one added first is also in a strictly earlier batch. -/
theorem C52_conflicting_insertion_order {w : Workload W ε} (hw : Built w) {sch : Scheduler W ε} {c : Created W ε}
    (h : createWorkload sch w = .ok c) {a b : Nat} {x y : WSys W ε} (hx : w.systems[a]? = some x)
    (hy : w.systems[b]? = some y) (ux : Unordered x) (uy : Unordered y) (hab : a < b) (hc : Conflicts x y) :
    c.earlier a b ∧ ∃ ka kb, c.inBatch a ka ∧ c.inBatch b kb ∧ ka < kb := by
  have he := C52_insertion_order hw h ⟨hab, x, y, hx, hy, ux, uy⟩
  refine ⟨he, ?_⟩
  obtain ⟨i, j, ka, kb, hij, hi, hj⟩ := he
  have ha : c.inBatch a ka := List.mem_of_getElem? hi
  have hb : c.inBatch b kb := List.mem_of_getElem? hj
  refine ⟨ka, kb, ha, hb, ?_⟩
  have hm := C49_batches_agree hw h
  have hle : ka ≤ kb := by
    obtain ⟨l1, e1⟩ := List.getElem?_eq_some_iff.mp hi
    obtain ⟨l2, e2⟩ := List.getElem?_eq_some_iff.mp hj
    have := List.pairwise_iff_getElem.mp hm i j l1 l2 hij
    rw [e1, e2] at this
    exact this
  rcases Nat.lt_or_ge ka kb with h' | h'
  · exact h'
  · have : ka = kb := by omega
    subst this
    exact absurd hc (C50_batch_no_conflict hw h (by omega) ha hb hx hy)

example : ∃ x y, Ex.demo.systems[0]? = some x ∧ Ex.demo.systems[2]? = some y ∧ Unordered x ∧ Unordered y ∧ Conflicts x y :=
  ⟨_, _, rfl, rfl, ⟨rfl, rfl⟩, ⟨rfl, rfl⟩, Ex.viewMut 5, by decide, Ex.view 5, by decide, .share rfl (.inl rfl)⟩

/-! ## C53: cycles -/

/-- A workload that builds has no cycle. -/
theorem C53_ok_acyclic {w : Workload W ε} (hw : Built w) {sch : Scheduler W ε} {c : Created W ε}
    (h : createWorkload sch w = .ok c) : ¬ Cyclic w := by
  obtain ⟨_, _, ss, o, rfl, hg, ho⟩ := created hw.wf h
  exact acyclic hg ho

/-- The cycle error means there is a cycle. -/
theorem C53_error_cyclic {w : Workload W ε} (hw : Built w) {sch : Scheduler W ε} {names : List Label}
    (h : createWorkload sch w = .error (.err (.cycle names))) : Cyclic w := by
  cases outcome hw.wf sch with
  | exists_ _ e => rw [e] at h; cases h
  | missingIn _ _ _ _ _ e => rw [e] at h; cases h
  | missingBefore _ _ _ _ _ _ e => rw [e] at h; cases h
  | missingAfter _ _ _ _ _ _ _ e => rw [e] at h; cases h
  | ok _ _ _ _ e => rw [e] at h; cases h
  | cycle _ _ _ e hc => exact hc

/-- With a free name and no requirements, building fails with the cycle error exactly when the constraints are cyclic, and
succeeds otherwise. -/
theorem C53_cycle_iff {w : Workload W ε} (hw : Built w) {sch : Scheduler W ε} (hname : sch.contains w.name = false)
    (hreq : ∀ s ∈ w.systems, s.reqIn = [] ∧ s.reqBefore = [] ∧ s.reqAfter = []) :
    ((∃ names, createWorkload sch w = .error (.err (.cycle names))) ↔ Cyclic w)
    ∧ ((∃ c, createWorkload sch w = .ok c) ↔ ¬ Cyclic w) := by
  have hmem : ∀ {i : Nat} {s}, w.systems[i]? = some s → s.reqIn = [] ∧ s.reqBefore = [] ∧ s.reqAfter = [] :=
    fun hs => hreq _ (List.mem_of_getElem? hs)
  cases outcome hw.wf sch with
  | exists_ h _ => rw [hname] at h; cases h
  | missingIn _ i s labels hs e hne hl =>
    cases labels with
    | nil => exact absurd rfl hne
    | cons l t =>
      have := ((hl l).mp (by simp)).1
      rw [(hmem hs).1] at this; cases this
  | missingBefore _ _ i s labels hs e hne hl =>
    cases labels with
    | nil => exact absurd rfl hne
    | cons l t =>
      have := ((hl l).mp (by simp)).1
      rw [(hmem hs).2.1] at this; cases this
  | missingAfter _ _ _ i s labels hs e hne hl =>
    cases labels with
    | nil => exact absurd rfl hne
    | cons l t =>
      have := ((hl l).mp (by simp)).1
      rw [(hmem hs).2.2] at this; cases this
  | cycle _ _ names e hc =>
    refine ⟨⟨fun _ => hc, fun _ => ⟨names, e⟩⟩, ⟨?_, fun h => absurd hc h⟩⟩
    rintro ⟨c, hc'⟩
    rw [e] at hc'; cases hc'
  | ok _ _ ss o e hg ho =>
    have hac := acyclic hg ho
    refine ⟨⟨?_, fun h => absurd h hac⟩, ⟨fun _ => hac, fun _ => ⟨_, e⟩⟩⟩
    rintro ⟨names, hc'⟩
    rw [e] at hc'; cases hc'

/-- Building never panics, never indexes out of range and terminates: the result is a schedule or an error value. -/
theorem C53_total {w : Workload W ε} (hw : Built w) (sch : Scheduler W ε) :
    (∃ c, createWorkload sch w = .ok c) ∨ ∃ e, createWorkload sch w = .error (.err e) := by
  cases outcome hw.wf sch with
  | exists_ _ e => exact .inr ⟨_, e⟩
  | missingIn _ _ _ _ _ e => exact .inr ⟨_, e⟩
  | missingBefore _ _ _ _ _ _ e => exact .inr ⟨_, e⟩
  | missingAfter _ _ _ _ _ _ _ e => exact .inr ⟨_, e⟩
  | cycle _ _ _ e => exact .inr ⟨_, e⟩
  | ok _ _ _ _ e => exact .inl ⟨_, e⟩

/-- 1 asks to run before 2 and 2 before 1. -/
def loopDemo : Workload Nat Unit :=
  ((Workload.new (.str 1)).withSystem ((Ex.sys 1 []).addBeforeAll (.system 2))).withSystem
    ((Ex.sys 2 []).addBeforeAll (.system 1))

example : Built loopDemo ∧ Cyclic loopDemo := by
  refine ⟨.withSystem (.withSystem (.new _ trivial) (.beforeAll _ trivial (Ex.sys_fresh _ _ rfl)))
    (.beforeAll _ trivial (Ex.sys_fresh _ _ rfl)), 0, ?_⟩
  refine .tail (.single (b := 1) (.inl ?_)) (.inl ?_)
  · exact .beforeAll (l := .system 2) rfl rfl (by decide) (by decide) (by decide)
  · exact .beforeAll (l := .system 1) rfl rfl (by decide) (by decide) (by decide)

/-- System 3 asks to run after system 2 and before system 1: the order 2, 3, 1 meets all the constraints the user wrote. -/
def chainDemo : Workload Nat Unit :=
  (((Workload.new (.str 1)).withSystem (Ex.sys 1 [])).withSystem (Ex.sys 2 [])).withSystem
    (((Ex.sys 3 []).addAfterAll (.system 2)).addBeforeAll (.system 1))

/-- Finding: the order in which unrelated systems were added is a constraint as well, even when they do not conflict, and it
can turn satisfiable explicit constraints into a cycle error. -/
theorem C53_explicit_only_fails : Built chainDemo
    ∧ (∀ a b, Explicit chainDemo a b → (a = 1 ∧ b = 2) ∨ (a = 2 ∧ b = 0))
    ∧ (match createWorkload (Scheduler.empty : Scheduler Nat Unit) chainDemo with
        | .error (.err (.cycle _)) => true | _ => false) = true := by
  refine ⟨.withSystem (.withSystem (.withSystem (.new _ trivial) (Ex.sys_fresh _ _ rfl)) (Ex.sys_fresh _ _ rfl))
    (.beforeAll _ trivial (.afterAll _ trivial (Ex.sys_fresh _ _ rfl))), ?_, rfl⟩
  intro a b he
  have hlt := explicit_lt he
  have hl : chainDemo.systems.length = 3 := rfl
  rw [hl] at hlt
  cases he with
  | @beforeAll x y l hx hy hne h1 h2 =>
    match a, b, hx, hy with
    | 0, _, hx, _ => cases hx; cases h1
    | 1, _, hx, _ => cases hx; cases h1
    | 2, 0, _, _ => exact .inr ⟨rfl, rfl⟩
    | 2, 1, hx, hy =>
      cases hx; cases hy
      have h1' : l = .system 1 := by simpa [Ex.sys, WSys.addBeforeAll, WSys.addAfterAll, addLabel] using h1
      subst h1'
      simp [Ex.sys] at h2
    | 2, 2, _, _ => exact absurd rfl hne
    | _ + 3, _, _, _ => omega
    | 2, _ + 3, _, _ => omega
  | @afterAll x y l hx hy hne h1 h2 =>
    match a, b, hx, hy with
    | _, 0, _, hy => cases hy; cases h1
    | _, 1, _, hy => cases hy; cases h1
    | 1, 2, _, _ => exact .inl ⟨rfl, rfl⟩
    | 0, 2, hx, hy =>
      cases hx; cases hy
      have h1' : l = .system 2 := by simpa [Ex.sys, WSys.addBeforeAll, WSys.addAfterAll, addLabel] using h1
      subst h1'
      simp [Ex.sys] at h2
    | 2, 2, _, _ => exact absurd rfl hne
    | _ + 3, _, _, _ => omega
    | 0, _ + 3, _, _ => omega
    | 1, _ + 3, _, _ => omega
    | 2, _ + 3, _, _ => omega
  | barrier hk => cases hk

/-- Finding: `Extend<WorkloadSystem>` does not renumber the systems: three systems without any constraint give a cycle error. -/
theorem C53_extend_fails :
    (match createWorkload (Scheduler.empty : Scheduler Nat Unit)
        ((Workload.new (.str 1)).extend [Ex.sys 1 [], Ex.sys 2 [], Ex.sys 3 []]) with
      | .error (.err (.cycle _)) => true | _ => false) = true := by rfl

/-! ## C54: requirements -/

/-- `require_in_workload`: building reports a missing system exactly for a system and the labels of its requirement that no
system of the workload carries. -/
theorem C54_require_in_exact {w : Workload W ε} (hw : Built w) {sch : Scheduler W ε} (hname : sch.contains w.name = false) :
    ((∃ n ls, createWorkload sch w = .error (.err (.missingInWorkload n ls))) ↔
      ∃ s ∈ w.systems, ∃ l ∈ s.reqIn, ¬ ∃ t ∈ w.systems, l ∈ t.tags)
    ∧ ∀ n ls, createWorkload sch w = .error (.err (.missingInWorkload n ls)) →
        ∃ s ∈ w.systems, s.name = n ∧ ∀ l, l ∈ ls ↔ l ∈ s.reqIn ∧ ¬ ∃ t ∈ w.systems, l ∈ t.tags := by
  have none : (∀ s ∈ w.systems, MetIn w s) → ¬ ∃ s ∈ w.systems, ∃ l ∈ s.reqIn, ¬ ∃ t ∈ w.systems, l ∈ t.tags := by
    rintro h ⟨s, hs, l, hl, hno⟩
    exact hno (h s hs l hl)
  have met : AllMet w → ∀ s ∈ w.systems, MetIn w s := by
    intro h s hs
    obtain ⟨i, hi⟩ := List.mem_iff_getElem?.mp hs
    exact (h i s hi).1
  cases outcome hw.wf sch with
  | exists_ h _ => rw [hname] at h; cases h
  | missingIn _ i s labels hs e hne hl =>
    refine ⟨⟨fun _ => ?_, fun _ => ⟨_, _, e⟩⟩, ?_⟩
    · cases labels with
      | nil => exact absurd rfl hne
      | cons l t =>
        obtain ⟨h1, h2⟩ := (hl l).mp (by simp)
        exact ⟨s, List.mem_of_getElem? hs, l, h1, h2⟩
    · intro n ls h
      rw [e] at h; cases h
      exact ⟨s, List.mem_of_getElem? hs, rfl, hl⟩
  | missingBefore _ h1 i s labels hs e hne hl =>
    refine ⟨⟨?_, fun h => absurd h (none h1)⟩, ?_⟩
    · rintro ⟨n, ls, h⟩; rw [e] at h; cases h
    · intro n ls h; rw [e] at h; cases h
  | missingAfter _ h1 _ i s labels hs e hne hl =>
    refine ⟨⟨?_, fun h => absurd h (none h1)⟩, ?_⟩
    · rintro ⟨n, ls, h⟩; rw [e] at h; cases h
    · intro n ls h; rw [e] at h; cases h
  | cycle _ h1 names e hc =>
    refine ⟨⟨?_, fun h => absurd h (none (met h1))⟩, ?_⟩
    · rintro ⟨n, ls, h⟩; rw [e] at h; cases h
    · intro n ls h; rw [e] at h; cases h
  | ok _ h1 ss o e hg ho =>
    refine ⟨⟨?_, fun h => absurd h (none (met h1))⟩, ?_⟩
    · rintro ⟨n, ls, h⟩; rw [e] at h; cases h
    · intro n ls h; rw [e] at h; cases h

/-- `require_before`: when presence requirements are met, building reports a missing system before exactly when, for some
required label, no system with it is ordered before by a chain of explicit constraints and closest conflicts.
Missing: "ordered before" in the sense of the built schedule, see `C54_require_before_fails`. -/
theorem C54_require_before_partial {w : Workload W ε} (hw : Built w) {sch : Scheduler W ε}
    (hname : sch.contains w.name = false)
    (hin : ∀ s ∈ w.systems, ∀ l ∈ s.reqIn, ∃ t ∈ w.systems, l ∈ t.tags) :
    (∃ n ls, createWorkload sch w = .error (.err (.missingBefore n ls))) ↔
      ∃ (i : Nat) (s : WSys W ε), w.systems[i]? = some s ∧ ∃ l ∈ s.reqBefore,
        ¬ ∃ (j : Nat) (t : WSys W ε), w.systems[j]? = some t ∧ Ordered w j i ∧ l ∈ t.tags := by
  have none : (∀ (i : Nat) s, w.systems[i]? = some s → MetBefore w i s) →
      ¬ ∃ (i : Nat) (s : WSys W ε), w.systems[i]? = some s ∧ ∃ l ∈ s.reqBefore,
        ¬ ∃ (j : Nat) (t : WSys W ε), w.systems[j]? = some t ∧ Ordered w j i ∧ l ∈ t.tags := by
    rintro h ⟨i, s, hs, l, hl, hno⟩
    exact hno (h i s hs l hl)
  cases outcome hw.wf sch with
  | exists_ h _ => rw [hname] at h; cases h
  | missingIn _ i s labels hs e hne hl =>
    cases labels with
    | nil => exact absurd rfl hne
    | cons l t =>
      obtain ⟨h1, h2⟩ := (hl l).mp (by simp)
      exact absurd (hin s (List.mem_of_getElem? hs) l h1) h2
  | missingBefore _ _ i s labels hs e hne hl =>
    refine ⟨fun _ => ?_, fun _ => ⟨_, _, e⟩⟩
    cases labels with
    | nil => exact absurd rfl hne
    | cons l t =>
      obtain ⟨h1, h2⟩ := (hl l).mp (by simp)
      exact ⟨i, s, hs, l, h1, h2⟩
  | missingAfter _ _ h2 i s labels hs e hne hl =>
    refine ⟨?_, fun h => absurd h (none h2)⟩
    rintro ⟨n, ls, h⟩; rw [e] at h; cases h
  | cycle _ h1 names e hc =>
    refine ⟨?_, fun h => absurd h (none fun i s hs => (h1 i s hs).2.1)⟩
    rintro ⟨n, ls, h⟩; rw [e] at h; cases h
  | ok _ h1 ss o e hg ho =>
    refine ⟨?_, fun h => absurd h (none fun i s hs => (h1 i s hs).2.1)⟩
    rintro ⟨n, ls, h⟩; rw [e] at h; cases h

/-- A met `require_before` is sound: in the built schedule a system with the label is in a strictly earlier batch. -/
theorem C54_require_before_sound {w : Workload W ε} (hw : Built w) {sch : Scheduler W ε} {c : Created W ε}
    (h : createWorkload sch w = .ok c) {i : Nat} {s : WSys W ε} (hs : w.systems[i]? = some s) {l : Label}
    (hl : l ∈ s.reqBefore) : ∃ (j : Nat) (t : WSys W ε), w.systems[j]? = some t ∧ l ∈ t.tags ∧ c.earlier j i
      ∧ ∃ kj ki, c.inBatch j kj ∧ c.inBatch i ki ∧ kj < ki := by
  obtain ⟨_, hm, ss, o, rfl, hg, ho⟩ := created hw.wf h
  obtain ⟨j, t, ht, hord, hlt⟩ := (hm i s hs).2.1 l hl
  have key : ∀ {a b}, Ordered w a b → (made sch w o).earlier a b
      ∧ ∃ ka kb, (made sch w o).inBatch a ka ∧ (made sch w o).inBatch b kb ∧ ka < kb := by
    intro a b hab
    induction hab with
    | @single b h =>
      have he : Edge (insertSystems sch w.systems).2 w a b := by
        rcases h with h | h
        · exact .inl h
        · exact .inr (.inl h)
      exact ⟨(edge_earlier hg ho he).1, (edge_earlier hg ho he).2 h⟩
    | @tail b c _ h ih =>
      have he : Edge (insertSystems sch w.systems).2 w b c := by
        rcases h with h | h
        · exact .inl h
        · exact .inr (.inl h)
      obtain ⟨e1, e2⟩ := edge_earlier hg ho he
      obtain ⟨ka, kb, a1, a2, a3⟩ := ih.2
      obtain ⟨kb', kc, b1, b2, b3⟩ := e2 h
      have := inBatch_unique ho a2 b1
      exact ⟨earlier_trans ho ih.1 e1, ka, kc, a1, b2, by omega⟩
  exact ⟨j, t, ht, hlt, (key hord).1, (key hord).2⟩

/-- System 1 and system 2 read a storage, system 3 writes it and requires system 1 before. -/
def requireDemo : Workload Nat Unit :=
  (((Workload.new (.str 1)).withSystem (Ex.sys 1 [Ex.view 5])).withSystem (Ex.sys 2 [Ex.view 5])).withSystem
    ((Ex.sys 3 [Ex.viewMut 5]).requireBefore (.system 1))

theorem requireDemo_built : Built requireDemo :=
  .withSystem (.withSystem (.withSystem (.new _ trivial) (Ex.sys_fresh _ _ rfl)) (Ex.sys_fresh _ _ rfl))
    (.requireBefore _ trivial (Ex.sys_fresh _ _ rfl))

/-- Finding: only the closest conflicting system counts, so the requirement is reported as unmet although by C52 every schedule
has system 1 in an earlier batch than system 3. -/
theorem C54_require_before_fails :
    (match createWorkload (Scheduler.empty : Scheduler Nat Unit) requireDemo with
      | .error (.err (.missingBefore n ls)) => decide (n = .system 3 ∧ ls = [.system 1]) | _ => false) = true := by rfl

/-- `require_after`: exact condition the code checks. Missing: the code also accepts the requiring system itself as soon
as anything is ordered after it (`AfterOrSelf`), see `C54_require_after_fails`; and the remark on C54_require_before. -/
theorem C54_require_after_partial {w : Workload W ε} (hw : Built w) {sch : Scheduler W ε}
    (hname : sch.contains w.name = false)
    (hin : ∀ s ∈ w.systems, ∀ l ∈ s.reqIn, ∃ t ∈ w.systems, l ∈ t.tags)
    (hbefore : ∀ s ∈ w.systems, s.reqBefore = []) :
    (∃ n ls, createWorkload sch w = .error (.err (.missingAfter n ls))) ↔
      ∃ (i : Nat) (s : WSys W ε), w.systems[i]? = some s ∧ ∃ l ∈ s.reqAfter,
        ¬ ∃ (j : Nat) (t : WSys W ε), w.systems[j]? = some t ∧ (Ordered w i j ∨ (j = i ∧ ∃ k, Ordered w i k)) ∧ l ∈ t.tags := by
  have none : (∀ (i : Nat) s, w.systems[i]? = some s → MetAfter w i s) →
      ¬ ∃ (i : Nat) (s : WSys W ε), w.systems[i]? = some s ∧ ∃ l ∈ s.reqAfter,
        ¬ ∃ (j : Nat) (t : WSys W ε), w.systems[j]? = some t ∧ AfterOrSelf w i j ∧ l ∈ t.tags := by
    rintro h ⟨i, s, hs, l, hl, hno⟩
    exact hno (h i s hs l hl)
  cases outcome hw.wf sch with
  | exists_ h _ => rw [hname] at h; cases h
  | missingIn _ i s labels hs e hne hl =>
    cases labels with
    | nil => exact absurd rfl hne
    | cons l t =>
      obtain ⟨h1, h2⟩ := (hl l).mp (by simp)
      exact absurd (hin s (List.mem_of_getElem? hs) l h1) h2
  | missingBefore _ _ i s labels hs e hne hl =>
    cases labels with
    | nil => exact absurd rfl hne
    | cons l t =>
      obtain ⟨h1, h2⟩ := (hl l).mp (by simp)
      rw [hbefore s (List.mem_of_getElem? hs)] at h1; cases h1
  | missingAfter _ _ h2 i s labels hs e hne hl =>
    refine ⟨fun _ => ?_, fun _ => ⟨_, _, e⟩⟩
    cases labels with
    | nil => exact absurd rfl hne
    | cons l t =>
      obtain ⟨h1, h2⟩ := (hl l).mp (by simp)
      exact ⟨i, s, hs, l, h1, h2⟩
  | cycle _ h1 names e hc =>
    refine ⟨?_, fun h => absurd h (none fun i s hs => (h1 i s hs).2.2)⟩
    rintro ⟨n, ls, h⟩; rw [e] at h; cases h
  | ok _ h1 ss o e hg ho =>
    refine ⟨?_, fun h => absurd h (none fun i s hs => (h1 i s hs).2.2)⟩
    rintro ⟨n, ls, h⟩; rw [e] at h; cases h

/-- System 1 requires itself after; system 2 conflicts with it. -/
def selfDemo : Workload Nat Unit :=
  ((Workload.new (.str 1)).withSystem ((Ex.sys 1 [Ex.viewMut 5]).requireAfter (.system 1))).withSystem (Ex.sys 2 [Ex.view 5])

/-- Finding: the search for the systems after starts at the system itself, so a system can meet its own requirement. -/
theorem C54_require_after_fails : Built selfDemo ∧
    (createWorkload (Scheduler.empty : Scheduler Nat Unit) selfDemo).toOption.map (fun c => c.plan)
      = some [(0, 0), (1, 1)] :=
  ⟨.withSystem (.withSystem (.new _ trivial) (.requireAfter _ trivial (Ex.sys_fresh _ _ rfl))) (Ex.sys_fresh _ _ rfl), rfl⟩

end Verif.Sched
