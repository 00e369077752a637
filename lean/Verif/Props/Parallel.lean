import Verif.Lemmas.ParallelAny
import Verif.Lemmas.ParallelOwn
import Verif.Props.Running

/-!
# C56, C59, C60: parallel runs

A system is a `Prog`: a sequence of atomic accesses to the world. A batch may interleave the accesses of its systems in any
way (`Steps`). `Disciplined` (in `Spec/Parallel.lean`) says that systems, and their conditions, access
only the storages the systems declare.
-/
namespace Verif.Sched

section
variable {W ε : Type}

/-- C56: whatever systems and conditions do, a parallel run of a workload has a result: neither the scheduler nor a wrong index panics. -/
theorem C56_total {progOf : Nat → Prog W ε} {w : Workload W ε} {sch : Scheduler W ε} {c : Created W ε}
    {progs : List (Prog W ε)} {names : List Label} {nameOf : Nat → Label} (hw : Built w) (h : createWorkload sch w = .ok c)
    (hp : c.sch.Lists progs progOf) (hn : c.sch.Lists names nameOf) (l : Label) (w0 : W) :
    ∃ w' res, RunWorkload c.batches progs names l w0 w' res := by
  have hz : c.sch.Lists (names.zip progs) (fun t => (nameOf t, progOf t)) := by
    intro p h
    exact List.getElem?_zip_eq_some.mpr ⟨hn p h, hp p h⟩
  have hreal := created_realises hw h hz (val := fun s => (nameOf s.typeId, progOf s.typeId)) (fun _ _ => rfl)
  obtain ⟨Ls, g1, _⟩ := realises_holdAll hreal
  cases hc : c.batches.workloadRunIf with
  | none =>
    obtain ⟨w', res, hr⟩ := par_total g1 w0
    exact ⟨w', res, .plain hc hr⟩
  | some f =>
    rcases hf : f w0 with ⟨w1, e | (_ | _)⟩
    · exact ⟨w1, _, .conditionErr hc hf⟩
    · exact ⟨w1, _, .conditionFalse hc hf⟩
    · obtain ⟨w', res, hr⟩ := par_total g1 w1
      exact ⟨w', res, .conditionTrue hc hf hr⟩

/-- C56: the systems of a batch never wait for each other: while one of them is not over a step is possible. -/
theorem C56_progress (w : W) (ts : List (Task W ε)) : (∀ t ∈ ts, t.over) ∨ ∃ w' ts', Step w ts w' ts' := by
  by_cases h : ∃ t ∈ ts, ¬ t.over
  · obtain ⟨t, ht, ho⟩ := h
    exact .inr (step_exists w ht ho)
  · refine .inl fun t ht => ?_
    by_cases ho : t.over
    · exact ho
    · exact absurd ⟨t, ht, ho⟩ h

/-- C56: no interleaving goes on for ever when the systems do not: there is no infinite sequence of steps. -/
theorem C56_terminates (w : Nat → W) (ts : Nat → List (Task W ε)) : ¬ ∀ n, Step (w n) (ts n) (w (n + 1)) (ts (n + 1)) := by
  intro h
  have : ∀ l : List (Task W ε), ∀ n, ts n = l → False := by
    intro l
    induction oneOf_acc forward_acc l with
    | intro l _ ih =>
      rintro n rfl
      exact ih _ (step_forward (h n)) (n + 1) rfl
  exact this _ 0 rfl

end

variable {V ε : Type}

section
variable {progOf : Nat → Prog (Nat → V) ε} {w : Workload (Nat → V) ε} {sch : Scheduler (Nat → V) ε} {c : Created (Nat → V) ε}
  {progs : List (Prog (Nat → V) ε)} {names : List Label} {nameOf : Nat → Label}

theorem lists_zip (hp : c.sch.Lists progs progOf) (hn : c.sch.Lists names nameOf) :
    c.sch.Lists (names.zip progs) (fun t => (nameOf t, progOf t)) := by
  intro p h
  exact List.getElem?_zip_eq_some.mpr ⟨hn p h, hp p h⟩

theorem run_cases (hw : Built w) (hd : Disciplined progOf w) (h : createWorkload sch w = .ok c)
    (hp : c.sch.Lists progs progOf) (hn : c.sch.Lists names nameOf) :
    Realises (names.zip progs) (fun s => (nameOf s.typeId, progOf s.typeId)) c.batches w c.plan
    ∧ BatchesAre c.batches progs names (fun s => nameOf s.typeId) (fun s => progOf s.typeId)
      (c.batches.parallel.zip c.batches.parallelRunIf) ((List.range c.batches.parallel.length).map (w.batch c.plan))
    ∧ ((List.range c.batches.parallel.length).map (w.batch c.plan)).flatten.map (seqJob fun s => progOf s.typeId)
      = w.inOrder c.plan := by
  have hr := created_realises hw h (lists_zip hp hn) (val := fun s => (nameOf s.typeId, progOf s.typeId)) (fun _ _ => rfl)
  exact ⟨hr, realises_batches hd hr, batches_inOrder hd hr.schedule.batches hr.bound⟩

theorem run_same {M : List (List (WSys (Nat → V) ε))} {jobs : List (NamedJob (Nat → V) ε)} {cond : Option (Cond (Nat → V) ε)}
    (hcond : c.batches.workloadRunIf = cond)
    (hb : BatchesAre c.batches progs names (fun s => nameOf s.typeId) (fun s => progOf s.typeId)
      (c.batches.parallel.zip c.batches.parallelRunIf) M)
    (ho : M.flatten.map (seqJob fun s => progOf s.typeId) = jobs) {l : Label} {w0 w' : Nat → V} {res}
    (hr : RunWorkload c.batches progs names l w0 w' res) :
    (res = .ok () ↔ (runAll l cond jobs w0).2 = .ok ()) ∧ (res = .ok () → w' = (runAll l cond jobs w0).1) := by
  have main : ∀ {w1 w' res}, RunPar c.batches progs names (c.batches.parallel.zip c.batches.parallelRunIf) w1 w' res →
      (res = .ok () ↔ (runJobs jobs w1).2 = .ok ())
      ∧ (res = .ok () → w' = (runJobs jobs w1).1) := by
    intro w1 w' res hr
    obtain ⟨k1, k2⟩ := par_vs_seq hb hr
    rw [ho] at k1 k2
    rcases res with e | u
    · obtain ⟨_, w'', e', k3⟩ := k2 e rfl
      rw [k3]
      exact ⟨⟨(fun h => by cases h), (fun h => by cases h)⟩, (fun h => by cases h)⟩
    · rw [k1 rfl]
      exact ⟨⟨fun _ => rfl, fun _ => rfl⟩, fun _ => rfl⟩
  unfold runAll
  rw [← hcond]
  cases hr with
  | plain hnone hr => rw [hnone]; exact main hr
  | conditionErr hsome he =>
    rw [hsome]
    unfold evalC
    dsimp only
    rw [he]
    exact ⟨⟨(fun h => by cases h), (fun h => by cases h)⟩, (fun h => by cases h)⟩
  | conditionFalse hsome he =>
    rw [hsome]
    unfold evalC
    dsimp only
    rw [he]
    exact ⟨⟨fun _ => rfl, fun _ => rfl⟩, fun _ => rfl⟩
  | conditionTrue hsome he hr =>
    rw [hsome]
    unfold evalC
    dsimp only
    rw [he]
    exact main hr

/-- C56: whatever the interleaving, a parallel run succeeds exactly when the sequential run succeeds, and then leaves the same
world. -/
theorem C56_parallel_sequential_partial (hw : Built w) (hd : Disciplined progOf w) (h : createWorkload sch w = .ok c)
    (hp : c.sch.Lists progs progOf) (hn : c.sch.Lists names nameOf) {l : Label} {w0 w' : Nat → V} {res}
    (hr : RunWorkload c.batches progs names l w0 w' res) :
    (res = .ok () ↔ (runAll l w.runIf (w.inOrder c.plan) w0).2 = .ok ())
    ∧ (res = .ok () → w' = (runAll l w.runIf (w.inOrder c.plan) w0).1) := by
  obtain ⟨hreal, hb, ho⟩ := run_cases hw hd h hp hn
  exact run_same hreal.cond hb ho hr

/-- C56: the same if conditions have views of their own, which overlap neither with other systems that can run at the same time nor with their
conditions. -/
theorem C56_own_views_partial {own : WSys (Nat → V) ε → List TypeInfo} (hw : Built w) (hd : DisciplinedOwn progOf own w)
    (h : createWorkload sch w = .ok c) (hp : c.sch.Lists progs progOf) (hn : c.sch.Lists names nameOf) {l : Label} {w0 w' : Nat → V} {res}
    (hr : RunWorkload c.batches progs names l w0 w' res) :
    (res = .ok () ↔ (runAll l w.runIf (w.inOrder c.plan) w0).2 = .ok ())
    ∧ (res = .ok () → w' = (runAll l w.runIf (w.inOrder c.plan) w0).1) := by
  have hreal := created_realises hw h (lists_zip hp hn) (val := fun s => (nameOf s.typeId, progOf s.typeId)) (fun _ _ => rfl)
  have hreal' := widen_realises (val := fun t => (nameOf t, progOf t)) hd hreal
  have hd' := widen_disciplined hd
  refine run_same hreal.cond (realises_batches hd' hreal') ?_ hr
  rw [batches_inOrder hd' hreal'.schedule.batches hreal'.bound]
  exact widen_inOrder c.plan

/-- C56: two runs of one workload from one world agree. -/
theorem C56_deterministic_partial {own : WSys (Nat → V) ε → List TypeInfo} (hw : Built w) (hd : DisciplinedOwn progOf own w)
    (h : createWorkload sch w = .ok c) (hp : c.sch.Lists progs progOf) (hn : c.sch.Lists names nameOf) {l : Label} {w0 w1 w2 : Nat → V} {r1 r2}
    (h1 : RunWorkload c.batches progs names l w0 w1 r1) (h2 : RunWorkload c.batches progs names l w0 w2 r2) :
    (r1 = .ok () ↔ r2 = .ok ()) ∧ (r1 = .ok () → w1 = w2) := by
  obtain ⟨a1, a2⟩ := C56_own_views_partial hw hd h hp hn h1
  obtain ⟨b1, b2⟩ := C56_own_views_partial hw hd h hp hn h2
  refine ⟨a1.trans b1.symm, ?_⟩
  intro hok
  rw [a2 hok, b2 (b1.mpr (a1.mp hok))]

/-- Conditions within the views of their system are a special case. -/
theorem C56_disciplined (hd : Disciplined progOf w) : DisciplinedOwn progOf (fun s => s.borrows) w := by
  have no : ∀ {s s' : WSys (Nat → V) ε}, ¬ Conflicts s s' → ∀ x ∈ s.borrows, ∀ y ∈ s'.borrows, ¬ Overlap x y := by
    intro s s' hno x hx y hy h
    refine hno ⟨x, hx, y, hy, ?_⟩
    cases h with
    | share h1 h2 => exact .share h1 h2
    | allLeft h => exact .allLeft h
    | allRight h => exact .allRight h
  exact ⟨hd.fn, hd.within, hd.cond, fun _ _ _ hno x hx => ⟨no hno x hx, no hno x hx⟩⟩

theorem run_failed (hd : Disciplined progOf w)
    (hreal : Realises (names.zip progs) (fun s => (nameOf s.typeId, progOf s.typeId)) c.batches w c.plan) {l : Label} {w0 w' : Nat → V} {err}
    (hr : RunWorkload c.batches progs names l w0 w' (.error err)) :
    (∃ e, (evalC w.runIf w0) = (w', .error e) ∧ err = .run l e)
    ∨ ∃ k w1 w2, evalC w.runIf w0 = (w1, .ok true)
      ∧ runJobs (w.inOrder (c.plan.filter fun p => decide (p.2 < k))) w1 = (w2, .ok ())
      ∧ (∀ x, (∀ p ∈ c.plan, p.2 = k → ∀ s, w.systems[p.1]? = some s → ¬ Writes s.borrows x) → w' x = w2 x)
      ∧ ∃ p ∈ c.plan, p.2 = k ∧ ∃ s e, w.systems[p.1]? = some s ∧ err = .run (nameOf s.typeId) e
        ∧ (runJob ((s.name, s.fn), s.runIf) w2).2 = .error (.run s.name e) := by
  have hb := realises_batches hd hreal
  have hcond := hreal.cond
  have main : ∀ {w1}, evalC w.runIf w0 = (w1, .ok true) →
      RunPar c.batches progs names (c.batches.parallel.zip c.batches.parallelRunIf) w1 w' (.error err) →
      ∃ k w1 w2, evalC w.runIf w0 = (w1, .ok true)
      ∧ runJobs (w.inOrder (c.plan.filter fun p => decide (p.2 < k))) w1 = (w2, .ok ())
      ∧ (∀ x, (∀ p ∈ c.plan, p.2 = k → ∀ s, w.systems[p.1]? = some s → ¬ Writes s.borrows x) → w' x = w2 x)
      ∧ ∃ p ∈ c.plan, p.2 = k ∧ ∃ s e, w.systems[p.1]? = some s ∧ err = .run (nameOf s.typeId) e
        ∧ (runJob ((s.name, s.fn), s.runIf) w2).2 = .error (.run s.name e) := by
    intro w1 he hr
    obtain ⟨_, k2⟩ := par_vs_seq hb hr
    obtain ⟨⟨k, w2, M, j1, j2, j3, s, hs, e, j4, j5⟩, _⟩ := k2 err rfl
    have hk : k < c.batches.parallel.length := by
      have := (List.getElem?_eq_some_iff.mp j2).1
      simpa using this
    rw [List.getElem?_map, List.getElem?_range hk] at j2
    cases j2
    have htake : ((List.range c.batches.parallel.length).map (w.batch c.plan)).take k
        = (List.range k).map (w.batch (c.plan.filter fun p => decide (p.2 < k))) := by
      rw [← List.map_take, List.take_range, Nat.min_eq_left (by omega)]
      apply List.map_congr_left
      intro i hi
      have hi := List.mem_range.mp hi
      unfold Workload.batch
      rw [List.filter_filter]
      congr 1
      apply List.filter_congr
      intro p _
      by_cases hpi : p.2 = i
      · simp [hpi, hi]
      · simp [hpi]
    rw [htake, batches_inOrder hd (hreal.schedule.batches.sublist List.filter_sublist)
      (fun p hp => by simpa using (List.mem_filter.mp hp).2)] at j1
    obtain ⟨p, hpf, hps⟩ := List.mem_filterMap.mp hs
    obtain ⟨hpp, hpk⟩ := List.mem_filter.mp hpf
    refine ⟨k, w1, w2, he, j1, ?_, p, hpp, by simpa using hpk, s, e, hps, j4, ?_⟩
    · intro x hx
      apply j3
      intro t ht
      obtain ⟨q, hqf, hqs⟩ := List.mem_filterMap.mp ht
      obtain ⟨hqp, hqk⟩ := List.mem_filter.mp hqf
      exact hx q hqp (by simpa using hqk) t hqs
    · rw [hd.fn s (List.mem_of_getElem? hps)]
      exact j5
  cases hr with
  | plain hnone hr =>
    refine .inr (main ?_ hr)
    rw [← hcond, hnone]
    rfl
  | conditionErr hsome he => exact .inl ⟨_, by rw [← hcond, hsome]; exact he, rfl⟩
  | conditionTrue hsome he hr =>
    refine .inr (main ?_ hr)
    rw [← hcond, hsome]
    exact he

/-- C60, parallel, when systems access only what they declare: when a run fails, either the condition of the workload failed, or there is a batch `k` such that all systems of the
earlier batches ran to their end without error, the returned error is the error of a system of batch `k` (or of its condition) with
the name that system is registered under, and nothing outside what batch `k` may write has changed since: no system of a later batch
has run. -/
theorem C60_parallel_partial (hw : Built w) (hd : Disciplined progOf w) (h : createWorkload sch w = .ok c)
    (hp : c.sch.Lists progs progOf) (hn : c.sch.Lists names nameOf) {l : Label} {w0 w' : Nat → V} {err}
    (hr : RunWorkload c.batches progs names l w0 w' (.error err)) :
    (∃ e, (evalC w.runIf w0) = (w', .error e) ∧ err = .run l e)
    ∨ ∃ k w1 w2, evalC w.runIf w0 = (w1, .ok true)
      ∧ runJobs (w.inOrder (c.plan.filter fun p => decide (p.2 < k))) w1 = (w2, .ok ())
      ∧ (∀ x, (∀ p ∈ c.plan, p.2 = k → ∀ s, w.systems[p.1]? = some s → ¬ Writes s.borrows x) → w' x = w2 x)
      ∧ ∃ p ∈ c.plan, p.2 = k ∧ ∃ s e, w.systems[p.1]? = some s ∧ err = .run (nameOf s.typeId) e
        ∧ (runJob ((s.name, s.fn), s.runIf) w2).2 = .error (.run s.name e) := by
  obtain ⟨hreal, _, _⟩ := run_cases hw hd h hp hn
  exact run_failed hd hreal hr

/-- C60, parallel, for conditions with views of their own. -/
theorem C60_own_views_partial {own : WSys (Nat → V) ε → List TypeInfo} (hw : Built w) (hd : DisciplinedOwn progOf own w)
    (h : createWorkload sch w = .ok c) (hp : c.sch.Lists progs progOf) (hn : c.sch.Lists names nameOf) {l : Label} {w0 w' : Nat → V} {err}
    (hr : RunWorkload c.batches progs names l w0 w' (.error err)) :
    (∃ e, (evalC w.runIf w0) = (w', .error e) ∧ err = .run l e)
    ∨ ∃ k w1 w2, evalC w.runIf w0 = (w1, .ok true)
      ∧ runJobs (w.inOrder (c.plan.filter fun p => decide (p.2 < k))) w1 = (w2, .ok ())
      ∧ (∀ x, (∀ p ∈ c.plan, p.2 = k → ∀ s, w.systems[p.1]? = some s → ¬ Writes s.borrows x ∧ ¬ Writes (own s) x) → w' x = w2 x)
      ∧ ∃ p ∈ c.plan, p.2 = k ∧ ∃ s e, w.systems[p.1]? = some s ∧ err = .run (nameOf s.typeId) e
        ∧ (runJob ((s.name, s.fn), s.runIf) w2).2 = .error (.run s.name e) := by
  have hreal := created_realises hw h (lists_zip hp hn) (val := fun s => (nameOf s.typeId, progOf s.typeId)) (fun _ _ => rfl)
  rcases run_failed (widen_disciplined hd) (widen_realises (val := fun t => (nameOf t, progOf t)) hd hreal) hr with
    h | ⟨k, w1, w2, h1, h2, h3, p, h4, h5, s, e, h6, h7, h8⟩
  · exact .inl h
  · rw [widen_inOrder] at h2
    obtain ⟨s, hs, rfl⟩ := widen_get h6
    refine .inr ⟨k, w1, w2, h1, h2, fun x hx => h3 x fun q hq hk t ht hwt => ?_, p, h4, h5, s, e, hs, h7, h8⟩
    obtain ⟨t, ht', rfl⟩ := widen_get ht
    obtain ⟨n1, n2⟩ := hx q hq hk t ht'
    rcases widen_writes hwt with h | h
    · exact n1 h
    · exact n2 h

end

/-! ## Concrete workloads -/

namespace Ex

abbrev P := Nat → Nat

def put (s v : Nat) (w : P) : P := fun x => if x = s then v else w x

/-- Reads storage `a` then writes it to storage `b`, plus 1. -/
def copyProg (a b : Nat) : Prog P Unit := .act id fun w => .act (put b (w a + 1)) fun _ => .done (.ok ())

theorem put_within {bs : List TypeInfo} {s v : Nat} (hw : Writes bs s) : (∀ (w : P) x, ¬ Writes bs x → put s v w x = w x)
    ∧ ∀ w w' : P, Agree bs w w' → Agree bs (put s v w) (put s v w') := by
  refine ⟨?_, ?_⟩
  · intro w x hx
    unfold put
    by_cases h : x = s
    · subst h; exact absurd hw hx
    · rw [if_neg h]
  · intro w w' h x hx
    unfold put
    by_cases h' : x = s
    · rw [if_pos h', if_pos h']
    · rw [if_neg h', if_neg h']; exact h x hx

theorem copy_within {bs : List TypeInfo} {a b : Nat} (ha : Reads bs a) (hb : Writes bs b) : (copyProg a b).Within bs := by
  refine .act (fun _ _ _ => rfl) (fun _ _ h => h) ?_ ?_
  · intro w w' h
    show Prog.act (put b (w a + 1)) _ = Prog.act (put b (w' a + 1)) _
    rw [h a ha]
  · intro w
    exact .act (put_within hb).1 (put_within hb).2 (fun _ _ _ => rfl) fun _ => .done _

def progOf : Nat → Prog P Unit
  | 1 => copyProg 5 5
  | 2 => copyProg 6 7
  | 3 => copyProg 5 6
  | _ => .done (.ok ())

def psys (t : Nat) (bs : List TypeInfo) : WSys P Unit :=
  { typeId := t, name := .system t, fn := (progOf t).run, borrows := bs, tracking := [], runIf := none, tags := [.system t],
    beforeAll := [], afterAll := [], after := [], before := [], uid := 0, reqIn := [], reqBefore := [], reqAfter := [] }

theorem psys_fresh (t : Nat) (bs : List TypeInfo) (h : checkBorrows bs = .ok ()) : Fresh (psys t bs) := by
  refine .ofFn (t := t) (bs := bs) (f := (progOf t).run) (tr := []) ?_
  unfold WSys.ofFn
  rw [h]; rfl

/-- Runs only if storage 6 is even. -/
def evenCond : Cond P Unit := fun w => (w, .ok (w 6 % 2 == 0))

/-- 1 and 2 run in one batch, 3 after both. -/
def pdemo : Workload P Unit :=
  (((Workload.new (.str 1)).withSystem (psys 1 [viewMut 5])).withSystem
    ((psys 2 [view 6, viewMut 7]).addRunIf evenCond)).withSystem (psys 3 [view 5, viewMut 6])

theorem pdemo_built : Built pdemo :=
  .withSystem (.withSystem (.withSystem (.new _ trivial) (psys_fresh _ _ rfl)) (.runIf _ (psys_fresh _ _ rfl)))
    (psys_fresh _ _ rfl)

theorem cond_none {bs : List TypeInfo} : CondWithin (V := Nat) (ε := Unit) bs none :=
  ⟨fun _ _ _ => rfl, fun _ _ _ => rfl, fun _ _ h => h⟩

theorem pdemo_disciplined : Disciplined progOf pdemo := by
  have hmem : ∀ s ∈ pdemo.systems, s = psys 1 [viewMut 5]
      ∨ s = { (psys 2 [view 6, viewMut 7]).addRunIf evenCond with uid := 1 } ∨ s = { psys 3 [view 5, viewMut 6] with uid := 2 } := by
    intro s hs
    have : s ∈ [psys 1 [viewMut 5], { (psys 2 [view 6, viewMut 7]).addRunIf evenCond with uid := 1 },
      { psys 3 [view 5, viewMut 6] with uid := 2 }] := hs
    simpa only [List.mem_cons, List.not_mem_nil, or_false] using this
  refine ⟨?_, ?_, ?_⟩
  · intro s hs
    rcases hmem s hs with rfl | rfl | rfl <;> rfl
  · intro s hs
    rcases hmem s hs with rfl | rfl | rfl
    · exact copy_within ⟨viewMut 5, by simp [psys], .inl rfl⟩ ⟨viewMut 5, by simp [psys], rfl, .inl rfl⟩
    · exact copy_within ⟨view 6, List.mem_cons_self, .inl rfl⟩ ⟨viewMut 7, List.mem_cons_of_mem _ List.mem_cons_self, rfl, .inl rfl⟩
    · exact copy_within ⟨view 5, List.mem_cons_self, .inl rfl⟩ ⟨viewMut 6, List.mem_cons_of_mem _ List.mem_cons_self, rfl, .inl rfl⟩
  · intro s hs
    rcases hmem s hs with rfl | rfl | rfl
    · exact cond_none
    · refine ⟨fun _ _ _ => rfl, ?_, fun _ _ h => h⟩
      intro w w' h
      have := h 6 ⟨view 6, List.mem_cons_self, .inl rfl⟩
      show (Except.ok (w 6 % 2 == 0) : Except Unit Bool) = .ok (w' 6 % 2 == 0)
      rw [this]
    · exact cond_none

theorem pdemo_created : ∃ c, createWorkload Scheduler.empty pdemo = .ok c ∧ c.plan = [(0, 0), (1, 0), (2, 1)]
    ∧ c.sch.lookup = [(1, 0), (2, 1), (3, 2)] := by
  have h : (createWorkload Scheduler.empty pdemo).toOption.map (fun c => (c.plan, c.sch.lookup))
    = some ([(0, 0), (1, 0), (2, 1)], [(1, 0), (2, 1), (3, 2)]) := by rfl
  cases hc : createWorkload Scheduler.empty pdemo with
  | error e => rw [hc] at h; cases h
  | ok c =>
    rw [hc] at h
    have := Option.some.inj h
    exact ⟨c, rfl, congrArg Prod.fst this, congrArg Prod.snd this⟩

/-- The hypotheses of C56 are met by `pdemo`, and the result is the expected one. -/
example : ∃ c, createWorkload Scheduler.empty pdemo = .ok c ∧ ∃ w',
    RunWorkload c.batches [copyProg 5 5, copyProg 6 7, copyProg 5 6] [.system 1, .system 2, .system 3] (.str 1) (fun _ => 0) w'
      (.ok ()) ∧ w' 5 = 1 ∧ w' 6 = 2 ∧ w' 7 = 1 ∧ w' 8 = 0 := by
  obtain ⟨c, hc, hplan, hlook⟩ := pdemo_created
  have hp : c.sch.Lists [copyProg 5 5, copyProg 6 7, copyProg 5 6] progOf := by
    intro p hp
    rw [hlook] at hp
    simp only [List.mem_cons, List.not_mem_nil, or_false] at hp
    rcases hp with rfl | rfl | rfl <;> rfl
  have hn : c.sch.Lists [.system 1, .system 2, .system 3] Label.system := by
    intro p hp
    rw [hlook] at hp
    simp only [List.mem_cons, List.not_mem_nil, or_false] at hp
    rcases hp with rfl | rfl | rfl <;> rfl
  refine ⟨c, hc, ?_⟩
  obtain ⟨w', res, hr⟩ := C56_total pdemo_built hc hp hn (.str 1) (fun _ => 0)
  obtain ⟨h1, h2⟩ := C56_parallel_sequential_partial pdemo_built pdemo_disciplined hc hp hn hr
  rw [hplan] at h1 h2
  have hok : res = .ok () := h1.mpr rfl
  subst hok
  refine ⟨w', hr, ?_⟩
  rw [h2 rfl]
  exact ⟨rfl, rfl, rfl, rfl⟩

/-- A condition that writes `v` in storage `s`. -/
def putCond (s v : Nat) (b : Bool) : Cond P Unit := fun w => (put s v w, .ok b)

theorem putCond_within {bs : List TypeInfo} {s v : Nat} {b : Bool} (hw : Writes bs s) : CondWithin bs (some (putCond s v b)) :=
  ⟨fun w x hx => (put_within hw).1 w x hx, fun _ _ _ => rfl, fun w w' h => (put_within hw).2 w w' h⟩

/-- Two systems of one batch whose conditions write where their system may. The second condition is false. -/
def wdemo : Workload P Unit :=
  ((Workload.new (.str 1)).withSystem ((psys 1 [viewMut 5]).addRunIf (putCond 5 10 true))).withSystem
    ((psys 2 [view 6, viewMut 7]).addRunIf (putCond 7 30 false))

theorem wdemo_built : Built wdemo :=
  .withSystem (.withSystem (.new _ trivial) (.runIf _ (psys_fresh _ _ rfl))) (.runIf _ (psys_fresh _ _ rfl))

theorem wdemo_disciplined : Disciplined progOf wdemo := by
  have hmem : ∀ s ∈ wdemo.systems, s = (psys 1 [viewMut 5]).addRunIf (putCond 5 10 true)
      ∨ s = { (psys 2 [view 6, viewMut 7]).addRunIf (putCond 7 30 false) with uid := 1 } := by
    intro s hs
    have : s ∈ [(psys 1 [viewMut 5]).addRunIf (putCond 5 10 true),
      { (psys 2 [view 6, viewMut 7]).addRunIf (putCond 7 30 false) with uid := 1 }] := hs
    simpa only [List.mem_cons, List.not_mem_nil, or_false] using this
  refine ⟨?_, ?_, ?_⟩
  · intro s hs
    rcases hmem s hs with rfl | rfl <;> rfl
  · intro s hs
    rcases hmem s hs with rfl | rfl
    · exact copy_within ⟨viewMut 5, List.mem_cons_self, .inl rfl⟩ ⟨viewMut 5, List.mem_cons_self, rfl, .inl rfl⟩
    · exact copy_within ⟨view 6, List.mem_cons_self, .inl rfl⟩ ⟨viewMut 7, List.mem_cons_of_mem _ List.mem_cons_self, rfl, .inl rfl⟩
  · intro s hs
    rcases hmem s hs with rfl | rfl
    · exact putCond_within ⟨viewMut 5, List.mem_cons_self, rfl, .inl rfl⟩
    · exact putCond_within ⟨viewMut 7, List.mem_cons_of_mem _ List.mem_cons_self, rfl, .inl rfl⟩

/-- C56 with conditions that write: system 1 works on what its condition left, the write of a false condition stays. -/
example : ∃ c, createWorkload Scheduler.empty wdemo = .ok c ∧ ∃ w',
    RunWorkload c.batches [copyProg 5 5, copyProg 6 7] [.system 1, .system 2] (.str 1) (fun _ => 0) w' (.ok ())
      ∧ w' 5 = 11 ∧ w' 6 = 0 ∧ w' 7 = 30 := by
  have h : (createWorkload Scheduler.empty wdemo).toOption.map (fun c => (c.plan, c.sch.lookup))
    = some ([(0, 0), (1, 0)], [(1, 0), (2, 1)]) := by rfl
  cases hc : createWorkload Scheduler.empty wdemo with
  | error e => rw [hc] at h; cases h
  | ok c =>
    rw [hc] at h
    have hplan : c.plan = [(0, 0), (1, 0)] := congrArg Prod.fst (Option.some.inj h)
    have hlook : c.sch.lookup = [(1, 0), (2, 1)] := congrArg Prod.snd (Option.some.inj h)
    have hp : c.sch.Lists [copyProg 5 5, copyProg 6 7] progOf := by
      intro p hp
      rw [hlook] at hp
      simp only [List.mem_cons, List.not_mem_nil, or_false] at hp
      rcases hp with rfl | rfl <;> rfl
    have hn : c.sch.Lists [.system 1, .system 2] Label.system := by
      intro p hp
      rw [hlook] at hp
      simp only [List.mem_cons, List.not_mem_nil, or_false] at hp
      rcases hp with rfl | rfl <;> rfl
    refine ⟨c, rfl, ?_⟩
    obtain ⟨w', res, hr⟩ := C56_total wdemo_built hc hp hn (.str 1) (fun _ => 0)
    obtain ⟨h1, h2⟩ := C56_parallel_sequential_partial wdemo_built wdemo_disciplined hc hp hn hr
    rw [hplan] at h1 h2
    have hok : res = .ok () := h1.mpr rfl
    subst hok
    refine ⟨w', hr, ?_⟩
    rw [h2 rfl]
    exact ⟨rfl, rfl, rfl⟩

/-- 2 runs only if storage 8 is 0: a view of its own. -/
def eightCond : Cond P Unit := fun w => (w, .ok (w 8 == 0))

def odemo : Workload P Unit :=
  ((Workload.new (.str 1)).withSystem (psys 1 [viewMut 5])).withSystem ((psys 2 [view 6, viewMut 7]).addRunIf eightCond)

theorem odemo_built : Built odemo :=
  .withSystem (.withSystem (.new _ trivial) (psys_fresh _ _ rfl)) (.runIf _ (psys_fresh _ _ rfl))

def odemoOwn (s : WSys P Unit) : List TypeInfo := if s.typeId = 2 then [view 8] else []

theorem odemo_disciplined : DisciplinedOwn progOf odemoOwn odemo := by
  have hmem : ∀ s ∈ odemo.systems, s = psys 1 [viewMut 5] ∨ s = { (psys 2 [view 6, viewMut 7]).addRunIf eightCond with uid := 1 } := by
    intro s hs
    have : s ∈ [psys 1 [viewMut 5], { (psys 2 [view 6, viewMut 7]).addRunIf eightCond with uid := 1 }] := hs
    simpa only [List.mem_cons, List.not_mem_nil, or_false] using this
  have no : ∀ {y : TypeInfo}, y.storage ≠ 8 → y.storage ≠ allStorages → ¬ Overlap (view 8) y := by
    intro y h1 h2 h
    cases h with
    | share h _ => exact h1 h.symm
    | allLeft h => cases h
    | allRight h => exact h2 h
  refine ⟨?_, ?_, ?_, ?_⟩
  · intro s hs
    rcases hmem s hs with rfl | rfl <;> rfl
  · intro s hs
    rcases hmem s hs with rfl | rfl
    · exact copy_within ⟨viewMut 5, List.mem_cons_self, .inl rfl⟩ ⟨viewMut 5, List.mem_cons_self, rfl, .inl rfl⟩
    · exact copy_within ⟨view 6, List.mem_cons_self, .inl rfl⟩ ⟨viewMut 7, List.mem_cons_of_mem _ List.mem_cons_self, rfl, .inl rfl⟩
  · intro s hs
    rcases hmem s hs with rfl | rfl
    · exact ⟨fun _ _ _ => rfl, fun _ _ _ => rfl, fun _ _ h => h⟩
    · refine ⟨fun _ _ _ => rfl, fun w w' h => ?_, fun _ _ h => h⟩
      have : w 8 = w' 8 := h 8 ⟨view 8, List.mem_cons_self, .inl rfl⟩
      show Except.ok (w 8 == 0) = Except.ok (w' 8 == 0)
      rw [this]
  · intro a b s s' hne hs hs' _ x hx
    rcases hmem s (List.mem_of_getElem? hs) with rfl | rfl
    · cases hx
    · rw [List.mem_singleton.mp hx]
      rcases hmem s' (List.mem_of_getElem? hs') with rfl | rfl
      · refine ⟨fun y hy => ?_, fun y hy => by cases hy⟩
        rw [List.mem_singleton.mp hy]
        exact no (by decide) (by decide)
      · exfalso
        have idx : ∀ (i : Nat), odemo.systems[i]? = some { (psys 2 [view 6, viewMut 7]).addRunIf eightCond with uid := 1 } → i = 1 := by
          intro i hi
          match i, hi with
          | 0, hi => exact absurd (congrArg (fun o : Option (WSys P Unit) => o.map (·.typeId)) hi) (by decide)
          | 1, _ => rfl
          | n + 2, hi => cases hi
        exact hne ((idx a hs).trans (idx b hs').symm)

/-- C56 with a condition that has a view of its own. -/
example : ∃ c, createWorkload Scheduler.empty odemo = .ok c ∧ ∃ w',
    RunWorkload c.batches [copyProg 5 5, copyProg 6 7] [.system 1, .system 2] (.str 1) (fun _ => 0) w' (.ok ())
      ∧ w' 5 = 1 ∧ w' 6 = 0 ∧ w' 7 = 1 := by
  have h : (createWorkload Scheduler.empty odemo).toOption.map (fun c => (c.plan, c.sch.lookup))
    = some ([(0, 0), (1, 0)], [(1, 0), (2, 1)]) := by rfl
  cases hc : createWorkload Scheduler.empty odemo with
  | error e => rw [hc] at h; cases h
  | ok c =>
    rw [hc] at h
    have hplan : c.plan = [(0, 0), (1, 0)] := congrArg Prod.fst (Option.some.inj h)
    have hlook : c.sch.lookup = [(1, 0), (2, 1)] := congrArg Prod.snd (Option.some.inj h)
    have hp : c.sch.Lists [copyProg 5 5, copyProg 6 7] progOf := by
      intro p hp
      rw [hlook] at hp
      simp only [List.mem_cons, List.not_mem_nil, or_false] at hp
      rcases hp with rfl | rfl <;> rfl
    have hn : c.sch.Lists [.system 1, .system 2] Label.system := by
      intro p hp
      rw [hlook] at hp
      simp only [List.mem_cons, List.not_mem_nil, or_false] at hp
      rcases hp with rfl | rfl <;> rfl
    refine ⟨c, rfl, ?_⟩
    obtain ⟨w', res, hr⟩ := C56_total odemo_built hc hp hn (.str 1) (fun _ => 0)
    obtain ⟨h1, h2⟩ := C56_own_views_partial odemo_built odemo_disciplined hc hp hn hr
    rw [hplan] at h1 h2
    have hok : res = .ok () := h1.mpr rfl
    subst hok
    refine ⟨w', hr, ?_⟩
    rw [h2 rfl]
    exact ⟨rfl, rfl, rfl⟩

/-- 2 runs only if storage 5 is not 0. Its views do not include storage 5. -/
def fiveCond : Cond P Unit := fun w => (w, .ok (w 5 != 0))

def condDemo : Workload P Unit :=
  ((Workload.new (.str 1)).withSystem (psys 1 [viewMut 5])).withSystem ((psys 2 [view 6, viewMut 7]).addRunIf fiveCond)

theorem condDemo_built : Built condDemo :=
  .withSystem (.withSystem (.new _ trivial) (psys_fresh _ _ rfl)) (.runIf _ (psys_fresh _ _ rfl))

end Ex

open Ex in
/-- C56 fails when a `run_if` condition reads a storage its system does not declare: the views of conditions play no part in
the choice of batches, and all conditions of a batch are evaluated before its systems. Here the condition of system 2 holds after system 1,
as in the sequential order, but is evaluated before it. -/
theorem C56_condition_fails : ∃ (w : Workload (Nat → Nat) Unit) (c : Created (Nat → Nat) Unit) (progOf : Nat → Prog (Nat → Nat) Unit)
    (w0 w' : Nat → Nat), Built w ∧ createWorkload Scheduler.empty w = .ok c
    ∧ (∀ s ∈ w.systems, s.fn = (progOf s.typeId).run ∧ (progOf s.typeId).Within s.borrows ∧ ∀ w, (evalC s.runIf w).1 = w)
    ∧ RunWorkload c.batches [progOf 1, progOf 2] [.system 1, .system 2] w.name w0 w' (.ok ())
    ∧ (runAll w.name w.runIf (w.inOrder c.plan) w0).2 = .ok ()
    ∧ w' ≠ (runAll w.name w.runIf (w.inOrder c.plan) w0).1 := by
  have h : (createWorkload Scheduler.empty condDemo).toOption.map (fun c => (c.plan, c.batches.parallel, c.batches.parallelRunIf))
    = some ([(0, 0), (1, 0)], [(none, [0, 1])], [(none, [none, some 0])]) := by rfl
  have hif : ∀ c, createWorkload Scheduler.empty condDemo = .ok c → c.batches.workloadRunIf = none
      ∧ c.batches.systemsRunIf = [fiveCond] := by
    intro c hc
    have h1 : (createWorkload Scheduler.empty condDemo).toOption.map (fun c => (c.batches.workloadRunIf, c.batches.systemsRunIf))
      = some (none, [fiveCond]) := by rfl
    rw [hc] at h1
    have := Option.some.inj h1
    exact ⟨congrArg Prod.fst this, congrArg Prod.snd this⟩
  cases hc : createWorkload Scheduler.empty condDemo with
  | error e => rw [hc] at h; cases h
  | ok c =>
    obtain ⟨hi1, hi2⟩ := hif c hc
    rw [hc] at h
    have h := Option.some.inj h
    have hplan : c.plan = [(0, 0), (1, 0)] := congrArg Prod.fst h
    have hpar : c.batches.parallel = [(none, [0, 1])] := congrArg (fun x => x.2.1) h
    have hparIf : c.batches.parallelRunIf = [(none, [none, some 0])] := congrArg (fun x => x.2.2) h
    refine ⟨condDemo, c, progOf, fun _ => 0, put 5 1 fun _ => 0, condDemo_built, hc, ?_, ?_, ?_, ?_⟩
    · intro s hs
      have : s ∈ [psys 1 [viewMut 5], { (psys 2 [view 6, viewMut 7]).addRunIf fiveCond with uid := 1 }] := hs
      simp only [List.mem_cons, List.not_mem_nil, or_false] at this
      rcases this with rfl | rfl
      · exact ⟨rfl, copy_within ⟨viewMut 5, by simp [psys], .inl rfl⟩ ⟨viewMut 5, by simp [psys], rfl, .inl rfl⟩, fun _ => rfl⟩
      · exact ⟨rfl, copy_within ⟨view 6, List.mem_cons_self, .inl rfl⟩
          ⟨viewMut 7, List.mem_cons_of_mem _ List.mem_cons_self, rfl, .inl rfl⟩, fun _ => rfl⟩
    · refine .plain hi1 ?_
      rw [hpar, hparIf]
      refine .next (w' := put 5 1 fun _ => 0) ?_ .nil
      have hsteps : Steps (fun _ => 0 : P) [⟨0, true, .todo (progOf 1)⟩] (put 5 1 fun _ => 0) [⟨0, true, .ended (.ok ())⟩] := by
        have s1 := Steps.tail (Steps.refl (w := (fun _ => 0 : P)) (ts := [⟨0, true, .todo (progOf 1)⟩]))
          (.start 0 (progOf 1) rfl rfl)
        have s2 := Steps.tail s1 (.act 0 _ _ rfl rfl)
        have s3 := Steps.tail s2 (.act 0 _ _ rfl rfl)
        have s4 := Steps.tail s3 (.finish 0 (.ok ()) rfl rfl)
        exact s4
      refine .systems (m := true) (flags := [true, false]) (s := (some 0, [(1, false)])) (ts := [⟨0, true, .todo (progOf 1)⟩])
        (ts' := [⟨0, true, .ended (.ok ())⟩]) (w1 := fun _ => 0) ?_ rfl rfl hsteps ?_ (.ok ?_)
      · unfold batchConditions shouldRun
        dsimp only
        unfold conditions shouldRun
        dsimp only [List.zip, List.zipWith]
        unfold conditions shouldRun
        dsimp only
        rw [hi2]
        rfl
      · intro t ht
        simp only [List.mem_singleton] at ht
        subst ht
        exact .inr ⟨_, rfl⟩
      · intro t ht e he
        simp only [List.mem_singleton] at ht
        subst ht
        cases he
    · rw [hplan]; rfl
    · rw [hplan]
      intro he
      have := congrFun he 7
      exact absurd this (by decide)

end Verif.Sched
