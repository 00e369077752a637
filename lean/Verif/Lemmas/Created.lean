import Verif.Lemmas.Require
import Verif.Lemmas.Report

/-! # What `create_workload` returns -/
namespace Verif.Sched

variable {W ε : Type}

open Relation (TransGen)

/-- The value built from the output of `order_systems`. -/
def made (sch : Scheduler W ε) (w : Workload W ε) (o : Order W ε) : Created W ε :=
  let b : Batches W ε :=
    { parallel := o.parallel, parallelRunIf := o.parallelRunIf, sequential := o.sequential,
      sequentialRunIf := o.sequentialRunIf, workloadRunIf := w.runIf, systemsRunIf := o.runIfs }
  { sch := (insertSystems sch w.systems).1.store w.name b, batches := b, info := { name := w.name, batches := o.report },
    trace := o.trace }

/-- What is written down about each system before the ordering. -/
def Noted (xs ss : List (Sys W ε)) : Prop :=
  ∀ (i : Nat) y, ss[i]? = some y → ∃ x, xs[i]? = some x ∧ y.notes = { notesOf xs i x with after := y.hardAfter }

/-- All requirements are met. -/
def AllMet (w : Workload W ε) : Prop :=
  ∀ (i : Nat) s, w.systems[i]? = some s → MetIn w s ∧ MetBefore w i s ∧ MetAfter w i s

inductive Outcome (sch : Scheduler W ε) (w : Workload W ε) : Prop
  | exists_ (h : sch.contains w.name = true) (e : createWorkload sch w = .error (.err .alreadyExists))
  | missingIn (h0 : sch.contains w.name = false) (i : Nat) (s : WSys W ε) (labels : List Label)
      (hs : w.systems[i]? = some s)
      (e : createWorkload sch w = .error (.err (.missingInWorkload s.name labels))) (hne : labels ≠ [])
      (hl : ∀ l, l ∈ labels ↔ l ∈ s.reqIn ∧ ¬ ∃ t ∈ w.systems, l ∈ t.tags)
  | missingBefore (h0 : sch.contains w.name = false) (h1 : ∀ s ∈ w.systems, MetIn w s)
      (i : Nat) (s : WSys W ε) (labels : List Label) (hs : w.systems[i]? = some s)
      (e : createWorkload sch w = .error (.err (.missingBefore s.name labels))) (hne : labels ≠ [])
      (hl : ∀ l, l ∈ labels ↔ l ∈ s.reqBefore ∧
          ¬ ∃ (j : Nat) (t : WSys W ε), w.systems[j]? = some t ∧ Ordered w j i ∧ l ∈ t.tags)
  | missingAfter (h0 : sch.contains w.name = false) (h1 : ∀ s ∈ w.systems, MetIn w s)
      (h2 : ∀ (i : Nat) s, w.systems[i]? = some s → MetBefore w i s)
      (i : Nat) (s : WSys W ε) (labels : List Label) (hs : w.systems[i]? = some s)
      (e : createWorkload sch w = .error (.err (.missingAfter s.name labels))) (hne : labels ≠ [])
      (hl : ∀ l, l ∈ labels ↔ l ∈ s.reqAfter ∧
          ¬ ∃ (j : Nat) (t : WSys W ε), w.systems[j]? = some t ∧ AfterOrSelf w i j ∧ l ∈ t.tags)
  | cycle (h0 : sch.contains w.name = false) (h : AllMet w) (names : List Label)
      (e : createWorkload sch w = .error (.err (.cycle names))) (hc : Cyclic w)
  | ok (h0 : sch.contains w.name = false) (h : AllMet w) (ss : List (Sys W ε)) (o : Order W ε)
      (e : createWorkload sch w = .ok (made sch w o)) (hg : Graph w (insertSystems sch w.systems).2 ss) (ho : Out ss o)
      (hr : RInv o) (hn : Noted (insertSystems sch w.systems).2 ss)

theorem outcome {w : Workload W ε} (hw : w.Wf) (sch : Scheduler W ε) : Outcome sch w := by
  cases hc : sch.contains w.name with
  | true =>
    refine .exists_ hc ?_
    unfold createWorkload
    rw [hc]; rfl
  | false =>
    have hl := link sch w
    obtain ⟨ss, ec, hg, hnt⟩ := graph hw sch
    have step : createWorkload sch w =
        (checkRequireIn (insertSystems sch w.systems).2 (insertSystems sch w.systems).2).bind fun _ =>
          (checkRequireBefore ss ss).bind fun _ => (checkRequireAfter ss 0 ss).bind fun _ =>
          (orderSystems ss).bind fun o => .ok (made sch w o) := by
      unfold createWorkload
      rw [hc]
      simp only [Bool.false_eq_true, if_false]
      show (checkRequireIn _ _).bind (fun _ => (constrain (insertSystems sch w.systems).2 w.barriers).bind _) = _
      rw [ec]
      rfl
    have r1 := requireIn_ok hw hl 0 (Nat.zero_le _)
    rw [List.drop_zero] at r1
    rcases r1 with ⟨e1, m1⟩ | ⟨i, s, labels, _, hs, e1, hne, hl'⟩
    rotate_left
    · refine .missingIn hc i s labels hs ?_ hne hl'
      rw [step, e1]; rfl
    have m1' : ∀ s ∈ w.systems, MetIn w s := by
      intro s hs
      obtain ⟨i, hi⟩ := List.mem_iff_getElem?.mp hs
      exact m1 i s (Nat.zero_le _) hi
    have r2 := requireBefore_ok hw hg 0 (Nat.zero_le _)
    rw [List.drop_zero] at r2
    rcases r2 with ⟨e2, m2⟩ | ⟨i, s, labels, _, hs, e2, hne, hl'⟩
    rotate_left
    · refine .missingBefore hc m1' i s labels hs ?_ hne hl'
      rw [step, e1, e2]; rfl
    have r3 := requireAfter_ok hw hg 0 (Nat.zero_le _)
    rw [List.drop_zero] at r3
    rcases r3 with ⟨e3, m3⟩ | ⟨i, s, labels, _, hs, e3, hne, hl'⟩
    rotate_left
    · refine .missingAfter hc m1' (fun i s hs => m2 i s (Nat.zero_le _) hs) i s labels hs ?_ hne hl'
      rw [step, e1, e2, e3]; rfl
    have hmet : AllMet w := fun i s hs =>
      ⟨m1 i s (Nat.zero_le _) hs, m2 i s (Nat.zero_le _) hs, m3 i s (Nat.zero_le _) hs⟩
    rcases order_ok hw hg with ⟨o, e4, ho⟩ | ⟨names, e4, _, a, ha⟩
    · refine .ok hc hmet (ss.map Sys.noteAfter) o ?_ hg.noted ho (order_report e4) ?_
      rotate_left
      · intro i y hy
        rw [List.getElem?_map] at hy
        cases hz : ss[i]? with
        | none => rw [hz] at hy; cases hy
        | some z =>
          rw [hz] at hy
          simp only [Option.map_some, Option.some.injEq] at hy
          subst hy
          obtain ⟨x, hx, hxn⟩ := hnt i z hz
          refine ⟨x, hx, ?_⟩
          unfold Sys.noteAfter
          rw [hxn]
      rw [step, e1, e2, e3, e4]; rfl
    · refine .cycle hc hmet names ?_ ⟨a, TransGen.mono (fun _ _ h => edge_before hl h) ha⟩
      rw [step, e1, e2, e3, e4]; rfl

/-- Inversion of a success, with what is known of the returned information. -/
theorem created_info {w : Workload W ε} (hw : w.Wf) {sch : Scheduler W ε} {c : Created W ε}
    (h : createWorkload sch w = .ok c) : ∃ ss o, c = made sch w o
      ∧ Graph w (insertSystems sch w.systems).2 ss ∧ Out ss o ∧ RInv o ∧ Noted (insertSystems sch w.systems).2 ss := by
  cases outcome hw sch with
  | exists_ _ e => rw [e] at h; cases h
  | missingIn _ _ _ _ _ e => rw [e] at h; cases h
  | missingBefore _ _ _ _ _ _ e => rw [e] at h; cases h
  | missingAfter _ _ _ _ _ _ _ e => rw [e] at h; cases h
  | cycle _ _ _ e => rw [e] at h; cases h
  | ok h0 hm ss o e hg ho hr hn =>
    rw [e] at h
    cases h
    exact ⟨ss, o, rfl, hg, ho, hr, hn⟩

/-- Inversion of a success. -/
theorem created {w : Workload W ε} (hw : w.Wf) {sch : Scheduler W ε} {c : Created W ε}
    (h : createWorkload sch w = .ok c) : sch.contains w.name = false ∧ AllMet w ∧ ∃ ss o, c = made sch w o
      ∧ Graph w (insertSystems sch w.systems).2 ss ∧ Out ss o := by
  cases outcome hw sch with
  | exists_ _ e => rw [e] at h; cases h
  | missingIn _ _ _ _ _ e => rw [e] at h; cases h
  | missingBefore _ _ _ _ _ _ e => rw [e] at h; cases h
  | missingAfter _ _ _ _ _ _ _ e => rw [e] at h; cases h
  | cycle _ _ _ e => rw [e] at h; cases h
  | ok h0 hm ss o e hg ho =>
    rw [e] at h
    cases h
    exact ⟨h0, hm, ss, o, rfl, hg, ho⟩

/-! ## Reading the schedule -/

theorem traceOk_mem {ss : List (Sys W ε)} {t : List (Nat × Sys W ε)} (h : TraceOk ss t) {p : Nat × Sys W ε}
    (hp : p ∈ t) : ∃ s, Is ss p.2 s := by
  obtain ⟨pre, post, rfl⟩ := List.append_of_mem hp
  obtain ⟨s, hs, _⟩ := h pre p post rfl
  exact ⟨s, hs⟩

theorem Is.same {ss : List (Sys W ε)} {x s : Sys W ε} (h : Is ss x s) :
    x.index = s.index ∧ x.borrows = s.borrows ∧ x.runIf = s.runIf ∧ x.uid = s.uid ∧ x.tags = s.tags := by
  rw [h.2]; exact ⟨rfl, rfl, rfl, rfl, rfl⟩

/-- An entry of the trace is a system of the workload. -/
theorem entry {w : Workload W ε} {xs ss : List (Sys W ε)} (hg : Graph w xs ss) {o : Order W ε} (ho : Out ss o)
    {p : Nat × Sys W ε} (hp : p ∈ o.trace) : ∃ s x, w.systems[p.2.uid]? = some s ∧ xs[p.2.uid]? = some x
      ∧ p.2.index = x.index ∧ p.2.borrows = s.borrows ∧ p.2.runIf = s.runIf := by
  obtain ⟨y, hy⟩ := traceOk_mem ho.trace hp
  obtain ⟨x, s, hx, hs, hpl, hsame, _⟩ := hg.sys _ y hy.1
  obtain ⟨i1, i2, i3, _⟩ := hy.same
  exact ⟨s, x, hs, hx, by rw [i1, hsame.index], by rw [i2, hsame.borrows, hpl.borrows],
    by rw [i3, hsame.runIf, hpl.runIf]⟩

theorem cond_resolve (b : Batches W ε) {r : Option Nat} (hv : Valid b.systemsRunIf r) :
    b.cond r = some (resolve b.systemsRunIf r) := by
  cases r with
  | none => rfl
  | some k =>
    have hk := hv k rfl
    show b.systemsRunIf[k]?.map some = some b.systemsRunIf[k]?
    rw [List.getElem?_eq_getElem hk]
    rfl

theorem nodup_fst {w : Workload W ε} {xs ss : List (Sys W ε)} {o : Order W ε} (_ : Graph w xs ss) (ho : Out ss o) :
    o.placed.Nodup := ho.perm.nodup_iff.mpr List.nodup_range

theorem made_systems (sch : Scheduler W ε) (w : Workload W ε) (o : Order W ε) :
    (made sch w o).sch.systems = (insertSystems sch w.systems).1.systems := rfl

/-- A table indexed like the scheduler's systems. -/
def Table {α : Type} (sch : Scheduler W ε) (w : Workload W ε) (table : List α) (val : WSys W ε → α) : Prop :=
  ∀ (i : Nat) x s, (insertSystems sch w.systems).2[i]? = some x → w.systems[i]? = some s →
    table[x.index]? = some (val s)

theorem table_fn {fnOf : Nat → SysFn W ε} {sch : Scheduler W ε} (hok : sch.Ok fnOf) {w : Workload W ε}
    (hfn : OneFn fnOf w) : Table sch w (insertSystems sch w.systems).1.systems (·.fn) :=
  (insertSystems_fn w.systems sch hok hfn).2

/-- The job of an entry of the trace. -/
theorem entry_job {α : Type} {sch : Scheduler W ε} {w : Workload W ε} {table : List α}
    {val : WSys W ε → α} (ht : Table sch w table val) {ss : List (Sys W ε)} (hg : Graph w (insertSystems sch w.systems).2 ss) {o : Order W ε}
    (ho : Out ss o) {p : Nat × Sys W ε} (hp : p ∈ o.trace) {r : Option Nat} (hv : Valid o.runIfs r)
    (hr : resolve o.runIfs r = p.2.runIf) :
    (made sch w o).batches.job table p.2.index r = w.at val p.2.uid := by
  obtain ⟨s, x, hs, hx, e1, _, e3⟩ := entry hg ho hp
  have hf := ht _ x s hx hs
  unfold Batches.job Workload.at
  rw [e1, hf, cond_resolve _ hv, hs]
  show some (val s, resolve o.runIfs r) = _
  rw [hr, e3]
  rfl

theorem seqJobs_ok {α : Type} {sch : Scheduler W ε} {w : Workload W ε} {table : List α}
    {val : WSys W ε → α} (ht : Table sch w table val) {ss : List (Sys W ε)} (hg : Graph w (insertSystems sch w.systems).2 ss) {o : Order W ε}
    (ho : Out ss o) : (made sch w o).batches.seqJobs table
      = (made sch w o).plan.map fun p => w.at val p.1 := by
  have hlen : o.sequentialRunIf.length = o.trace.length := by
    have := congrArg List.length ho.seqIf
    simpa using this
  unfold Batches.seqJobs Created.plan
  rw [List.map_map]
  apply List.ext_getElem?
  intro k
  rw [List.getElem?_map, List.getElem?_map]
  show Option.map _ (o.sequential.zip o.sequentialRunIf)[k]? = Option.map _ o.trace[k]?
  by_cases hk : k < o.trace.length
  · have hp : o.trace[k]? = some o.trace[k] := List.getElem?_eq_getElem hk
    have hq : o.sequentialRunIf[k]? = some o.sequentialRunIf[k] := List.getElem?_eq_getElem (by omega)
    have hr := congrArg (fun l => l[k]?) ho.seqIf
    simp only [List.getElem?_map] at hr
    rw [hp, hq] at hr
    simp only [Option.map_some, Option.some.injEq] at hr
    have hz : (o.sequential.zip o.sequentialRunIf)[k]? = some (o.trace[k].2.index, o.sequentialRunIf[k]) := by
      rw [List.getElem?_zip_eq_some]
      refine ⟨?_, hq⟩
      rw [ho.seq, List.getElem?_map, hp]
      rfl
    rw [hz, hp]
    simp only [Option.map_some]
    congr 1
    exact entry_job ht hg ho (List.getElem_mem hk) (ho.seqVal _ (List.getElem_mem _)) hr
  · rw [List.getElem?_eq_none (l := o.trace) (by omega), List.getElem?_eq_none (l := o.sequential.zip _)]
    · rfl
    · rw [List.length_zip, hlen]
      omega

/-- A list of indices and a list of run_if indices that resolve to those of the same entries. -/
theorem zip_jobs {α : Type} {sch : Scheduler W ε} {w : Workload W ε} {table : List α}
    {val : WSys W ε → α} (ht : Table sch w table val) {ss : List (Sys W ε)} (hg : Graph w (insertSystems sch w.systems).2 ss) {o : Order W ε}
    (ho : Out ss o) (t : List (Nat × Sys W ε)) (htm : ∀ p ∈ t, p ∈ o.trace) :
    ∀ (rs : List (Option Nat)), (∀ r ∈ rs, Valid o.runIfs r) →
      rs.map (resolve o.runIfs) = t.map (·.2.runIf) →
    ((t.map (·.2.index)).zip rs).map (fun p => (made sch w o).batches.job table p.1 p.2)
      = t.map fun p => w.at val p.2.uid := by
  induction t with
  | nil =>
    intro rs _ h
    rfl
  | cons p t ih =>
    intro rs hv h
    cases rs with
    | nil => cases h
    | cons r rs =>
      simp only [List.map_cons, List.cons.injEq] at h
      simp only [List.map_cons, List.zip_cons_cons]
      rw [entry_job ht hg ho (htm p (by simp)) (hv r (by simp)) h.1,
        ih (fun q hq => htm q (List.mem_cons_of_mem _ hq)) rs (fun q hq => hv q (List.mem_cons_of_mem _ hq)) h.2]

/-- The jobs of one batch. -/
theorem batchJobs_ok {α : Type} {sch : Scheduler W ε} {w : Workload W ε} {table : List α}
    {val : WSys W ε → α} (ht : Table sch w table val) {ss : List (Sys W ε)} (hg : Graph w (insertSystems sch w.systems).2 ss) {o : Order W ε}
    (ho : Out ss o) {k : Nat} (hk : k < o.parallel.length) :
    ∃ jobs, ((made sch w o).batches.parJobs table)[k]? = some jobs
      ∧ jobs.Perm ((((made sch w o).plan).filter fun p => p.2 == k).map fun p => w.at val p.1) := by
  have hki : k < o.info.length := by rw [← ho.par]; exact hk
  have hlen : o.parallelRunIf.length = o.info.length := by
    have := congrArg List.length ho.parIf
    simpa using this
  have hi : o.info[k]? = some (batchOf o.trace k) := by
    conv => lhs; rw [ho.info]
    rw [List.getElem?_map, List.getElem?_range hki]
    rfl
  have hpar : o.parallel[k]? = some ((batchOf o.trace k).1.map (·.index), (batchOf o.trace k).2.map (·.index)) := by
    rw [ho.parSys, List.getElem?_map, hi]
    rfl
  have hq : o.parallelRunIf[k]? = some o.parallelRunIf[k] := List.getElem?_eq_getElem (by omega)
  have hr := congrArg (fun l => l[k]?) ho.parIf
  simp only [List.getElem?_map] at hr
  rw [hq, hi] at hr
  simp only [Option.map_some, Option.some.injEq, Prod.mk.injEq] at hr
  have hmem : o.parallelRunIf[k] ∈ o.parallelRunIf := List.getElem_mem _
  refine ⟨(made sch w o).batches.batchJobs table
    ((batchOf o.trace k).1.map (·.index), (batchOf o.trace k).2.map (·.index)) o.parallelRunIf[k], ?_, ?_⟩
  · unfold Batches.parJobs
    rw [List.getElem?_map]
    have : (o.parallel.zip o.parallelRunIf)[k]? = some (((batchOf o.trace k).1.map (·.index),
        (batchOf o.trace k).2.map (·.index)), o.parallelRunIf[k]) := by
      rw [List.getElem?_zip_eq_some]
      exact ⟨hpar, hq⟩
    show Option.map _ (o.parallel.zip o.parallelRunIf)[k]? = _
    rw [this]
    rfl
  · -- singles and the others of the batch
    have e2 : (batchOf o.trace k).2 = (o.trace.filter fun p => p.1 == k && !p.2.single).map (·.2) := rfl
    have j2 : (((batchOf o.trace k).2.map (·.index)).zip o.parallelRunIf[k].2).map
        (fun p => (made sch w o).batches.job table p.1 p.2)
        = (o.trace.filter fun p => p.1 == k && !p.2.single).map fun p => w.at val p.2.uid := by
      rw [e2, List.map_map]
      refine zip_jobs ht hg ho _ (fun p hp => (List.mem_filter.mp hp).1) _ (ho.parVal2 _ hmem) ?_
      rw [hr.2, e2, List.map_map]
      rfl
    have j1 : (match ((batchOf o.trace k).1.map (·.index)) with
        | some i => [(made sch w o).batches.job table i o.parallelRunIf[k].1]
        | none => [])
        = (o.trace.filter fun p => p.1 == k && p.2.single).map fun p => w.at val p.2.uid := by
      rcases single_unique ho.sep k with h0 | ⟨s, h0, _⟩
      · have e1 : (batchOf o.trace k).1 = none := by
          unfold batchOf; rw [h0]; rfl
        rw [e1, h0]
        rfl
      · have e1 : (batchOf o.trace k).1 = some s := by
          unfold batchOf; rw [h0]; rfl
        have hm : (k, s) ∈ o.trace := by
          have : (k, s) ∈ (o.trace.filter fun p => p.1 == k && p.2.single) := by rw [h0]; simp
          exact (List.mem_filter.mp this).1
        rw [e1, h0]
        show [_] = [_]
        congr 1
        refine entry_job ht hg ho hm (ho.parVal1 _ hmem) ?_
        rw [hr.1, e1]
        rfl
    have hjobs : (made sch w o).batches.batchJobs table
        ((batchOf o.trace k).1.map (·.index), (batchOf o.trace k).2.map (·.index)) o.parallelRunIf[k]
        = (o.trace.filter fun p => p.1 == k && p.2.single).map (fun p => w.at val p.2.uid)
          ++ (o.trace.filter fun p => p.1 == k && !p.2.single).map fun p => w.at val p.2.uid := by
      rw [← j1, ← j2]
      rfl
    rw [hjobs, ← List.map_append]
    have hplan : (((made sch w o).plan).filter fun p => p.2 == k).map (fun p => w.at val p.1)
        = (o.trace.filter fun p => p.1 == k).map fun p => w.at val p.2.uid := by
      unfold Created.plan
      rw [List.filter_map, List.map_map]
      rfl
    rw [hplan]
    apply List.Perm.map
    have := filter_split_perm (o.trace.filter fun p => p.1 == k) (fun p => p.2.single)
    rw [List.filter_filter, List.filter_filter] at this
    have c1 : (fun p : Nat × Sys W ε => p.2.single && p.1 == k) = fun p => p.1 == k && p.2.single := by
      funext p; exact Bool.and_comm _ _
    have c2 : (fun p : Nat × Sys W ε => (!p.2.single) && p.1 == k) = fun p => p.1 == k && !p.2.single := by
      funext p; exact Bool.and_comm _ _
    rw [c1, c2] at this
    exact this

/-! ## Order -/

theorem plan_get {w : Workload W ε} {sch : Scheduler W ε} {o : Order W ε} {i a k : Nat}
    (h : (made sch w o).plan[i]? = some (a, k)) : ∃ s, o.trace[i]? = some (k, s) ∧ s.uid = a := by
  unfold Created.plan at h
  rw [List.getElem?_map] at h
  have h' : Option.map (fun p : Nat × Sys W ε => (p.2.uid, p.1)) o.trace[i]? = some (a, k) := h
  cases ht : o.trace[i]? with
  | none => rw [ht] at h'; cases h'
  | some p =>
    rw [ht] at h'
    cases h'
    exact ⟨p.2, rfl, rfl⟩

theorem plan_of_trace {w : Workload W ε} {sch : Scheduler W ε} {o : Order W ε} {i : Nat} {p : Nat × Sys W ε}
    (h : o.trace[i]? = some p) : (made sch w o).plan[i]? = some (p.2.uid, p.1) := by
  unfold Created.plan
  rw [List.getElem?_map]
  show Option.map _ o.trace[i]? = _
  rw [h]; rfl

theorem placed_inj {ss : List (Sys W ε)} {o : Order W ε} (ho : Out ss o) {i j : Nat} {p q : Nat × Sys W ε}
    (hi : o.trace[i]? = some p) (hj : o.trace[j]? = some q) (h : p.2.uid = q.2.uid) : i = j := by
  have hn : o.placed.Nodup := ho.perm.nodup_iff.mpr List.nodup_range
  have h1 : o.placed[i]? = some p.2.uid := by
    unfold Order.placed
    rw [List.getElem?_map, hi]; rfl
  have h2 : o.placed[j]? = some p.2.uid := by
    unfold Order.placed
    rw [List.getElem?_map, hj, h]; rfl
  obtain ⟨l1, e1⟩ := List.getElem?_eq_some_iff.mp h1
  obtain ⟨l2, e2⟩ := List.getElem?_eq_some_iff.mp h2
  have hpw := List.pairwise_iff_getElem.mp hn
  rcases Nat.lt_trichotomy i j with h | h | h
  · exact absurd (e1.trans e2.symm) (hpw i j l1 l2 h)
  · exact h
  · exact absurd (e2.trans e1.symm) (hpw j i l2 l1 h)

theorem earlier_trans {sch : Scheduler W ε} {w : Workload W ε} {ss : List (Sys W ε)} {o : Order W ε} (ho : Out ss o)
    {a b c : Nat} (h1 : (made sch w o).earlier a b) (h2 : (made sch w o).earlier b c) :
    (made sch w o).earlier a c := by
  obtain ⟨i, j, ka, kb, hij, hi, hj⟩ := h1
  obtain ⟨i', j', kb', kc, hij', hi', hj'⟩ := h2
  obtain ⟨s, hs, e1⟩ := plan_get hj
  obtain ⟨s', hs', e2⟩ := plan_get hi'
  have : j = i' := placed_inj ho hs hs' (by rw [e1, e2])
  exact ⟨i, j', ka, kc, by omega, hi, hj'⟩

theorem earlier_irrefl {sch : Scheduler W ε} {w : Workload W ε} {ss : List (Sys W ε)} {o : Order W ε} (ho : Out ss o)
    {a : Nat} : ¬ (made sch w o).earlier a a := by
  rintro ⟨i, j, ka, kb, hij, hi, hj⟩
  obtain ⟨s, hs, e1⟩ := plan_get hi
  obtain ⟨s', hs', e2⟩ := plan_get hj
  have : i = j := placed_inj ho hs hs' (by rw [e1, e2])
  omega

/-- The place of a system in the trace. -/
theorem placed_at {w : Workload W ε} {xs ss : List (Sys W ε)} (hg : Graph w xs ss) {o : Order W ε} (ho : Out ss o) {b : Nat}
    (hb : b < w.systems.length) : ∃ (j : Nat) (p : Nat × Sys W ε), o.trace[j]? = some p ∧ p.2.uid = b := by
  have hm : b ∈ o.placed := ho.perm.mem_iff.mpr (List.mem_range.mpr (by rw [hg.len]; exact hb))
  obtain ⟨p, hp, rfl⟩ := List.mem_map.mp hm
  obtain ⟨j, hj⟩ := List.mem_iff_getElem?.mp hp
  exact ⟨j, p, hj, rfl⟩

theorem edge_earlier {w : Workload W ε} {sch : Scheduler W ε} {ss : List (Sys W ε)}
    (hg : Graph w (insertSystems sch w.systems).2 ss) {o : Order W ε} (ho : Out ss o) {a b : Nat}
    (he : Edge (insertSystems sch w.systems).2 w a b) : (made sch w o).earlier a b
      ∧ ((Explicit w a b ∨ Nearest w a b) → ∃ ka kb, (made sch w o).inBatch a ka ∧ (made sch w o).inBatch b kb ∧ ka < kb) := by
  have hb : b < w.systems.length := by
    rcases edge_before (link sch w) he with h | h
    · exact (explicit_lt h).2.1
    · exact (implicit_lt h).2
  obtain ⟨j, p, hj, rfl⟩ := placed_at hg ho hb
  have hsplit : o.trace = o.trace.take j ++ p :: o.trace.drop (j + 1) := by
    obtain ⟨hl, he⟩ := List.getElem?_eq_some_iff.mp hj
    conv => lhs; rw [← List.take_append_drop j o.trace]
    rw [List.drop_eq_getElem_cons hl, he]
  obtain ⟨s, hs, hsoft, hhard⟩ := ho.trace _ p _ hsplit
  obtain ⟨x, t, hx, ht, hpl, hsame, hh, hso⟩ := hg.sys p.2.uid s hs.1
  have at_ : ∀ q ∈ o.trace.take j, ∃ i, i < j ∧ o.trace[i]? = some q := by
    intro q hq
    obtain ⟨i, hi⟩ := List.mem_iff_getElem?.mp hq
    rw [List.getElem?_take] at hi
    split at hi
    · exact ⟨i, by assumption, hi⟩
    · cases hi
  have hhard' : (Explicit w a p.2.uid ∨ Nearest w a p.2.uid) → ∃ q ∈ o.trace.take j, q.2.uid = a ∧ q.1 < p.1 :=
    fun h => hhard a ((hh a).mpr h)
  constructor
  · have : ∃ q ∈ o.trace.take j, q.2.uid = a := by
      rcases he with h | h | h
      · obtain ⟨q, hq, h1, _⟩ := hhard' (.inl h); exact ⟨q, hq, h1⟩
      · obtain ⟨q, hq, h1, _⟩ := hhard' (.inr h); exact ⟨q, hq, h1⟩
      · exact hsoft a ((hso a).mpr h)
    obtain ⟨q, hq, rfl⟩ := this
    obtain ⟨i, hij, hi⟩ := at_ q hq
    exact ⟨i, j, q.1, p.1, hij, plan_of_trace hi, plan_of_trace hj⟩
  · intro h
    obtain ⟨q, hq, rfl, hlt⟩ := hhard' h
    obtain ⟨i, hij, hi⟩ := at_ q hq
    exact ⟨q.1, p.1, List.mem_of_getElem? (plan_of_trace hi), List.mem_of_getElem? (plan_of_trace hj), hlt⟩

theorem path_earlier {w : Workload W ε} {sch : Scheduler W ε} {ss : List (Sys W ε)}
    (hg : Graph w (insertSystems sch w.systems).2 ss) {o : Order W ε} (ho : Out ss o) {a b : Nat}
    (h : TransGen (Edge (insertSystems sch w.systems).2 w) a b) : (made sch w o).earlier a b := by
  induction h with
  | single h => exact (edge_earlier hg ho h).1
  | tail _ h ih => exact earlier_trans ho ih (edge_earlier hg ho h).1

theorem before_earlier {w : Workload W ε} {sch : Scheduler W ε} {ss : List (Sys W ε)}
    (hg : Graph w (insertSystems sch w.systems).2 ss) {o : Order W ε} (ho : Out ss o) {a b : Nat}
    (h : Before w a b) : (made sch w o).earlier a b :=
  path_earlier hg ho (before_edge (link sch w) h)

theorem inBatch_unique {sch : Scheduler W ε} {w : Workload W ε} {ss : List (Sys W ε)} {o : Order W ε} (ho : Out ss o)
    {a k k' : Nat} (h1 : (made sch w o).inBatch a k) (h2 : (made sch w o).inBatch a k') : k = k' := by
  obtain ⟨i, hi⟩ := List.mem_iff_getElem?.mp h1
  obtain ⟨j, hj⟩ := List.mem_iff_getElem?.mp h2
  obtain ⟨s, hs, e1⟩ := plan_get hi
  obtain ⟨s', hs', e2⟩ := plan_get hj
  have : i = j := placed_inj ho hs hs' (by rw [e1, e2])
  subst this
  rw [hi] at hj
  cases hj; rfl

theorem acyclic {w : Workload W ε} {sch : Scheduler W ε} {ss : List (Sys W ε)}
    (hg : Graph w (insertSystems sch w.systems).2 ss) {o : Order W ε} (ho : Out ss o) : ¬ Cyclic w := by
  rintro ⟨a, ha⟩
  have : TransGen (Edge (insertSystems sch w.systems).2 w) a a :=
    TransGen.join (fun _ _ h => before_edge (link sch w) h) ha
  exact earlier_irrefl ho (path_earlier (o := o) hg ho this)

end Verif.Sched
