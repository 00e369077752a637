import Verif.Spec.ParallelPanic
import Verif.Props.ParallelAny

/-!
# C94: systems that panic in parallel runs
-/
namespace Verif.Sched

section
variable {W ε : Type} {b : Batches W (Stop ε)} {progOf : Nat → Prog W (Stop ε)} {w : Workload W (Stop ε)} {sch : Scheduler W (Stop ε)}
  {c : Created W (Stop ε)} {progs : List (Prog W (Stop ε))} {names : List Label} {nameOf : Nat → Label}

theorem lists_zip_any (hp : c.sch.Lists progs progOf) (hn : c.sch.Lists names nameOf) :
    c.sch.Lists (names.zip progs) (fun t => (nameOf t, progOf t)) := fun p h => List.getElem?_zip_eq_some.mpr ⟨hn p h, hp p h⟩

theorem batchP_cases {x : Option Nat × List Nat} {r : Option Nat × List (Option Nat)} {L : List (WSys W (Stop ε))}
    (h : Holds b progs names x r (fun s => nameOf s.typeId) (fun s => progOf s.typeId) L) {w w' : W} {out}
    (hr : RunBatchP b progs names x r w w' out) :
    AtOnceP progOf nameOf L w w' out ∧ ∃ res, RunBatch b progs names x r w w' res ∧ (out = .returned (.ok ()) ↔ res = .ok ()) := by
  have hb := batch_any h w
  rcases ha : askAll L w with ⟨w1, ⟨s, e⟩ | flags⟩
  · rw [ha] at hb
    dsimp only at hb
    cases hr with
    | condition h1 =>
      have h1' := h1
      rw [hb] at h1
      cases h1
      refine ⟨?_, _, .condition h1', ?_⟩
      · cases e with
        | err e => exact .refused ha
        | panic => exact .refusedPanic ha
      · cases e <;> exact ⟨(fun h => by cases h), (fun h => by cases h)⟩
    | systems h1 => rw [hb] at h1; cases h1
  · rw [ha] at hb
    dsimp only at hb
    obtain ⟨m, fs, sp, ts, k1, k2, k3, k4⟩ := hb
    cases hr with
    | condition h1 => rw [k1] at h1; cases h1
    | systems h1 hs ht hsteps hover hres =>
      rename_i w1' m' flags' s' ts0 ts'
      rw [k1] at h1
      cases h1
      rw [k2] at hs
      cases hs
      rw [k3] at ht
      cases ht
      have hstat : ts.map (·.status) = (chosen L flags).map fun s => .todo (progOf s.typeId) := by
        have := congrArg (List.map Prod.snd) k4
        rw [List.map_map, List.map_map] at this
        exact this
      have hkept : Kept names ts ts' := steps_kept hsteps
      have hnames : ts'.map (fun t => names[t.index]?) = (chosen L flags).map fun s => some (nameOf s.typeId) := by
        have := congrArg (List.map Prod.fst) k4
        rw [List.map_map, List.map_map] at this
        rw [hkept.names]
        exact this
      have nosk : ∀ t ∈ ts, t.status ≠ .skipped := by
        intro t ht hsk
        have hm : t.status ∈ ts.map (·.status) := List.mem_map_of_mem (f := fun t : Task W (Stop ε) => t.status) ht
        rw [hstat, hsk] at hm
        obtain ⟨_, _, h⟩ := List.mem_map.mp hm
        cases h
      have found : ∀ {t}, t ∈ ts' → ∃ (i : Nat) (s : WSys W (Stop ε)), ts'[i]? = some t ∧ (chosen L flags)[i]? = some s
          ∧ names[t.index]? = some (nameOf s.typeId) := by
        intro t ht
        obtain ⟨i, hi⟩ := List.mem_iff_getElem?.mp ht
        have hnm := congrArg (fun l => l[i]?) hnames
        simp only [List.getElem?_map, hi, Option.map_some] at hnm
        cases hs : (chosen L flags)[i]? with
        | none => rw [hs] at hnm; cases hnm
        | some s =>
          rw [hs] at hnm
          exact ⟨i, s, hi, hs, Option.some.inj hnm⟩
      have anyErr : ∀ {t e}, t ∈ ts' → t.status = .ended (.error e) → ∃ res, BatchResult names ts' res ∧ res ≠ .ok () := by
        intro t e ht he
        by_cases hm : ∃ t ∈ ts', t.main = true ∧ ∃ e, t.status = .ended (.error e)
        · obtain ⟨t1, h1, h2, e1, h3⟩ := hm
          obtain ⟨i, s, _, _, hn⟩ := found h1
          exact ⟨_, .main h1 h2 h3 hn, fun h => by cases h⟩
        · obtain ⟨i, s, _, _, hn⟩ := found ht
          exact ⟨_, .pool (fun t1 h1 e1 h2 h3 => hm ⟨t1, h1, h2, e1, h3⟩) ht he hn, fun h => by cases h⟩
      cases hres with
      | @unwound t ht he =>
        obtain ⟨i, s, hi, hs, hn⟩ := found ht
        obtain ⟨res, hres, hne⟩ := anyErr ht he
        exact ⟨.panicked ha hstat hsteps hover hs hi he, res, .systems k1 k2 k3 hsteps hover hres,
          (fun h => by cases h), fun h => absurd h hne⟩
      | @returned rr hnp hres =>
        have both : ∀ {t : Task W (Stop ε)} {e n}, t ∈ ts' → t.status = .ended (.error e) → names[t.index]? = some n →
            AtOnceP progOf nameOf L w w' (RunErr.run n e).toEnd ∧ (RunErr.run n e).toEnd ≠ .returned (.ok ()) := by
          intro t e n ht he hn
          obtain ⟨i, s, hi, hs, hn'⟩ := found ht
          rw [hn] at hn'
          cases hn'
          cases e with
          | panic => exact absurd he (hnp t ht)
          | err e => exact ⟨.failed ha hstat hsteps hover hnp hs hi he, fun h => by cases h⟩
        have hrb : RunBatch b progs names x r w w' rr := .systems k1 k2 k3 hsteps hover hres
        cases hres with
        | ok hne =>
          refine ⟨.ok ha hstat hsteps ?_, _, hrb, ⟨fun _ => rfl, fun _ => rfl⟩⟩
          intro t ht
          rcases hover t ht with hsk | ⟨rr, hrr⟩
          · rcases hkept.skipped ⟨t, ht, hsk⟩ with ⟨u, hu, hus⟩ | ⟨u, hu, e, he⟩
            · exact absurd hus (nosk u hu)
            · exact absurd he (hne u hu e)
          · rcases rr with e | ⟨⟩
            · exact absurd hrr (hne t ht e)
            · exact hrr
        | main ht hm he hn =>
          obtain ⟨g1, g2⟩ := both ht he hn
          exact ⟨g1, _, hrb, fun h => absurd h g2, fun h => by cases h⟩
        | pool h0 ht he hn =>
          obtain ⟨g1, g2⟩ := both ht he hn
          exact ⟨g1, _, hrb, fun h => absurd h g2, fun h => by cases h⟩

theorem parP_cases {xs Ls} (h : HoldAll b progs names (fun s => nameOf s.typeId) (fun s => progOf s.typeId) xs Ls) :
    ∀ {w w' out}, RunParP b progs names xs w w' out → InTurnP progOf nameOf Ls w w' out
      ∧ ∃ res, RunPar b progs names xs w w' res ∧ (out = .returned (.ok ()) ↔ res = .ok ()) := by
  induction h with
  | nil => intro w w' res hr; cases hr; exact ⟨.nil, _, .nil, ⟨fun _ => rfl, fun _ => rfl⟩⟩
  | cons h1 _ ih =>
    intro w w' res hr
    cases hr with
    | stop hb hne =>
      obtain ⟨g1, res, g2, g3⟩ := batchP_cases h1 hb
      refine ⟨.stop g1 hne, res, ?_, g3⟩
      rcases res with e | ⟨⟩
      · exact .stop g2
      · exact absurd (g3.mpr rfl) hne
    | next hb hr =>
      obtain ⟨g1, res, g2, g3⟩ := batchP_cases h1 hb
      obtain ⟨g4, res', g5, g6⟩ := ih hr
      cases g3.mp rfl
      exact ⟨.next g1 g4, res', .next g2 g5, g6⟩

/-- C94: what a parallel run does: the condition of the workload, then the groups of the plan one after the other; the run panics exactly
when a condition it asked or a system it started did, and no group after that one is begun. -/
theorem C94_run (hw : Built w) (h : createWorkload sch w = .ok c) (hp : c.sch.Lists progs progOf) (hn : c.sch.Lists names nameOf) :
    Schedule w c.plan ∧ ∃ Ls : List (List (WSys W (Stop ε))), (∀ p ∈ c.plan, p.2 < Ls.length)
      ∧ (∀ (k : Nat) L, Ls[k]? = some L → L.Perm (w.group c.plan k))
      ∧ ∀ l w0 w' out, RunWorkloadP c.batches progs names l w0 w' out →
        match evalC w.runIf w0 with
        | (w1, .error .panic) => w' = w1 ∧ out = .unwound
        | (w1, .error (.err e)) => w' = w1 ∧ out = .returned (.error (.run l e))
        | (w1, .ok false) => w' = w1 ∧ out = .returned (.ok ())
        | (w1, .ok true) => InTurnP progOf nameOf Ls w1 w' out := by
  have hreal := created_realises hw h (lists_zip_any hp hn) (val := fun s => (nameOf s.typeId, progOf s.typeId)) (fun _ _ => rfl)
  obtain ⟨Ls, g1, g2, g3⟩ := realises_holdAll hreal
  refine ⟨hreal.schedule, Ls, fun p hp => g2 ▸ hreal.bound p hp, g3, ?_⟩
  intro l w0 w' res hr
  rw [← hreal.cond]
  cases hr with
  | plain hnone hr => rw [hnone]; exact (parP_cases g1 hr).1
  | conditionErr hsome he =>
    rename_i e
    rw [hsome, show evalC (some _) w0 = _ from he]
    cases e <;> exact ⟨rfl, rfl⟩
  | conditionFalse hsome he => rw [hsome, show evalC (some _) w0 = _ from he]; exact ⟨rfl, rfl⟩
  | conditionTrue hsome he hr => rw [hsome, show evalC (some _) w0 = _ from he]; exact (parP_cases g1 hr).1

theorem inTurnP_split : ∀ {Ls : List (List (WSys W (Stop ε)))} {w w' : W} {out}, InTurnP progOf nameOf Ls w w' out →
    out ≠ .returned (.ok ()) → ∃ pre L post w1, Ls = pre ++ L :: post ∧ InTurnP progOf nameOf pre w w1 (.returned (.ok ()))
      ∧ AtOnceP progOf nameOf L w1 w' out
  | [], _, _, _, h, hne => by cases h; exact absurd rfl hne
  | L :: Ls, w, w', out, h, hne => by
    cases h with
    | stop h _ => exact ⟨[], L, Ls, w, rfl, .nil, h⟩
    | next h1 h2 =>
      obtain ⟨pre, M, post, w1, k1, k2, k3⟩ := inTurnP_split h2 hne
      exact ⟨L :: pre, M, post, w1, by rw [k1]; rfl, .next h1 k2, k3⟩

/-- C94: a run that panics did so because the condition of the workload panicked, or because of one group: all systems of the groups before
it that were started ended well; a condition of that group panicked, and then none of its systems was started, or a system of that group
that was started panicked, and all of that group that were started have come to their end. No system of a later group was started. -/
theorem C94_panic (hw : Built w) (h : createWorkload sch w = .ok c) (hp : c.sch.Lists progs progOf)
    (hn : c.sch.Lists names nameOf) {l : Label} {w0 w' : W} (hr : RunWorkloadP c.batches progs names l w0 w' .unwound) :
    evalC w.runIf w0 = (w', .error .panic)
    ∨ ∃ Ls L w1 w2, evalC w.runIf w0 = (w1, .ok true) ∧ (∀ (k : Nat) M, Ls[k]? = some M → M.Perm (w.group c.plan k))
      ∧ InTurnP progOf nameOf Ls w1 w2 (.returned (.ok ())) ∧ L.Perm (w.group c.plan Ls.length)
      ∧ ((∃ s, askAll L w2 = (w', .error (s, .panic)))
        ∨ ∃ w3 flags ts ts', askAll L w2 = (w3, .ok flags)
          ∧ ts.map (·.status) = (chosen L flags).map (fun s => .todo (progOf s.typeId)) ∧ Steps w3 ts w' ts' ∧ (∀ t ∈ ts', t.over)
          ∧ ∃ (i : Nat) (s : WSys W (Stop ε)) (t : Task W (Stop ε)), (chosen L flags)[i]? = some s ∧ ts'[i]? = some t
            ∧ t.status = .ended (.error .panic)) := by
  obtain ⟨_, Ls, _, hperm, hrun⟩ := C94_run hw h hp hn
  have := hrun l w0 w' _ hr
  rcases he : evalC w.runIf w0 with ⟨w1, (e | _) | (_ | _)⟩ <;> rw [he] at this <;> dsimp only at this
  · cases this.2
  · exact .inl (by rw [this.1])
  · cases this.2
  · obtain ⟨pre, L, post, w2, k1, k2, k3⟩ := inTurnP_split this (fun h => by cases h)
    refine .inr ⟨pre, L, w1, w2, rfl, fun k M hM => hperm k M ?_, k2, hperm _ L ?_, ?_⟩
    · rw [k1, List.getElem?_append_left (List.getElem?_eq_some_iff.mp hM).1]; exact hM
    · rw [k1, List.getElem?_append_right (Nat.le_refl _), Nat.sub_self]; rfl
    · cases k3 with
      | refusedPanic ha => exact .inl ⟨_, ha⟩
      | panicked ha hs hst ho hc ht he => exact .inr ⟨_, _, _, _, ha, hs, hst, ho, _, _, _, hc, ht, he⟩

/-- C94: a system that was not started although its condition held was to run in the pool, and another one of the pool had failed or panicked:
the panic of the system that runs in place keeps no other one from running. -/
theorem C94_skipped {w w' : W} {ts ts' : List (Task W ε)} (hs : Steps w ts w' ts') (h0 : ∀ t ∈ ts, t.status ≠ .skipped) {t : Task W ε}
    (ht : t ∈ ts') (hsk : t.status = .skipped) : t.main = false ∧ ∃ t' ∈ ts', t'.main = false ∧ ∃ e, t'.status = .ended (.error e) := by
  have key : ∀ t ∈ ts', t.status = .skipped → t.main = false ∧ ∃ t' ∈ ts', t'.main = false ∧ ∃ e, t'.status = .ended (.error e) := by
    clear ht hsk
    induction hs with
    | refl => exact fun t ht h => absurd h (h0 t ht)
    | tail _ hst ih =>
      have carry : ∀ {ts1 : List (Task W ε)} {i : Nat} {t : Task W ε} {st},
          (∀ t ∈ ts1, t.status = .skipped → t.main = false ∧ ∃ t' ∈ ts1, t'.main = false ∧ ∃ e, t'.status = .ended (.error e)) →
          ts1[i]? = some t → (∀ r, t.status ≠ .ended r) →
          (st = .skipped → t.main = false ∧ ∃ t' ∈ ts1, t'.main = false ∧ ∃ e, t'.status = .ended (.error e)) →
          ∀ u ∈ ts1.set i { t with status := st }, u.status = .skipped →
            u.main = false ∧ ∃ t' ∈ ts1.set i { t with status := st }, t'.main = false ∧ ∃ e, t'.status = .ended (.error e) := by
        intro ts1 i t st ih ht hne hsk u hu hus
        rcases mem_set hu with rfl | hu
        · obtain ⟨h1, t', h2, h3, e, h4⟩ := hsk hus
          exact ⟨h1, t', keeps_ended ht hne h2 h4, h3, e, h4⟩
        · obtain ⟨h1, t', h2, h3, e, h4⟩ := ih u hu hus
          exact ⟨h1, t', keeps_ended ht hne h2 h4, h3, e, h4⟩
      have none : ∀ {t : Task W ε} {p}, t.status = .todo p → ∀ r, t.status ≠ .ended r := by
        intro t p h r h'; rw [h] at h'; cases h'
      have none' : ∀ {t : Task W ε} {p}, t.status = .going p → ∀ r, t.status ≠ .ended r := by
        intro t p h r h'; rw [h] at h'; cases h'
      cases hst with
      | start i p ht hp => exact carry ih ht (none hp) (fun h => by cases h)
      | act i u k ht hp => exact carry ih ht (none' hp) (fun h => by cases h)
      | finish i r ht hp => exact carry ih ht (none' hp) (fun h => by cases h)
      | skip i p e ht hp hm hm' hn he => exact carry ih ht (none hp) (fun _ => ⟨hm, _, hm', hn, e, he⟩)
  exact key t ht hsk

/-- C94: whatever systems and conditions do, panics included, a parallel run comes to an end. -/
theorem C94_total (hw : Built w) (h : createWorkload sch w = .ok c) (hp : c.sch.Lists progs progOf) (hn : c.sch.Lists names nameOf)
    (l : Label) (w0 : W) : ∃ w' out, RunWorkloadP c.batches progs names l w0 w' out := by
  have batch : ∀ {x r w w' res}, RunBatch c.batches progs names x r w w' res →
      ∃ out, RunBatchP c.batches progs names x r w w' out ∧ (out = .returned (.ok ()) → res = .ok ()) := by
    intro x r w w' res hr
    cases hr with
    | condition hc =>
      rename_i e
      refine ⟨_, .condition hc, fun h => ?_⟩
      rcases e with _ | ⟨n, e | _⟩ <;> cases h
    | systems h1 h2 h3 h4 h5 h6 =>
      rename_i ts'
      by_cases hpn : ∃ t ∈ ts', t.status = .ended (.error .panic)
      · obtain ⟨t, ht, he⟩ := hpn
        exact ⟨_, .systems h1 h2 h3 h4 h5 (.unwound ht he), fun h => by cases h⟩
      · refine ⟨_, .systems h1 h2 h3 h4 h5 (.returned (fun t ht he => hpn ⟨t, ht, he⟩) h6), fun h => ?_⟩
        rcases res with (_ | ⟨n, e | _⟩) | ⟨⟩ <;> first | rfl | cases h
  have par : ∀ {xs w w' res}, RunPar c.batches progs names xs w w' res → ∃ w' out, RunParP c.batches progs names xs w w' out := by
    intro xs w w' res hr
    induction hr with
    | nil => exact ⟨_, _, .nil⟩
    | stop hb =>
      obtain ⟨out, g1, g2⟩ := batch hb
      exact ⟨_, _, .stop g1 (fun h => by cases g2 h)⟩
    | next hb _ ih =>
      obtain ⟨out, g1, _⟩ := batch hb
      obtain ⟨w', out', g3⟩ := ih
      by_cases ho : out = .returned (.ok ())
      · subst ho; exact ⟨_, _, .next g1 g3⟩
      · exact ⟨_, _, .stop g1 ho⟩
  obtain ⟨w', res, hr⟩ := C56_total hw h hp hn l w0
  cases hr with
  | plain h1 h2 => obtain ⟨_, _, g⟩ := par h2; exact ⟨_, _, .plain h1 g⟩
  | conditionErr h1 h2 => exact ⟨_, _, .conditionErr h1 h2⟩
  | conditionFalse h1 h2 => exact ⟨_, _, .conditionFalse h1 h2⟩
  | conditionTrue h1 h2 h3 => obtain ⟨_, _, g⟩ := par h3; exact ⟨_, _, .conditionTrue h1 h2 g⟩

/-- A run that may panic is a run, with the same world. -/
theorem runP_run (hw : Built w) (h : createWorkload sch w = .ok c) (hp : c.sch.Lists progs progOf) (hn : c.sch.Lists names nameOf)
    {l : Label} {w0 w' : W} {out} (hr : RunWorkloadP c.batches progs names l w0 w' out) :
    ∃ res, RunWorkload c.batches progs names l w0 w' res ∧ (out = .returned (.ok ()) ↔ res = .ok ()) := by
  have hreal := created_realises hw h (lists_zip_any hp hn) (val := fun s => (nameOf s.typeId, progOf s.typeId)) (fun _ _ => rfl)
  obtain ⟨Ls, g1, _, _⟩ := realises_holdAll hreal
  cases hr with
  | plain h1 h2 => obtain ⟨_, res, g, g'⟩ := parP_cases g1 h2; exact ⟨res, .plain h1 g, g'⟩
  | conditionErr h1 h2 =>
    rename_i e
    refine ⟨_, .conditionErr h1 h2, (fun h => ?_), fun h => by cases h⟩
    cases e <;> cases h
  | conditionFalse h1 h2 => exact ⟨_, .conditionFalse h1 h2, ⟨fun _ => rfl, fun _ => rfl⟩⟩
  | conditionTrue h1 h2 h3 => obtain ⟨_, res, g, g'⟩ := parP_cases g1 h3; exact ⟨res, .conditionTrue h1 h2 g, g'⟩

end

section
variable {V ε : Type} {progOf : Nat → Prog (Nat → V) (Stop ε)} {w : Workload (Nat → V) (Stop ε)} {sch : Scheduler (Nat → V) (Stop ε)}
  {c : Created (Nat → V) (Stop ε)} {progs : List (Prog (Nat → V) (Stop ε))} {names : List Label} {nameOf : Nat → Label}

/-- C94, when systems access only what they declare: a parallel run ends well exactly when the sequential one does (none of its systems
fails or panics), and then leaves the same world. -/
theorem C94_sequential_partial {own : WSys (Nat → V) (Stop ε) → List TypeInfo} (hw : Built w) (hd : DisciplinedOwn progOf own w)
    (h : createWorkload sch w = .ok c) (hp : c.sch.Lists progs progOf) (hn : c.sch.Lists names nameOf) {l : Label} {w0 w' : Nat → V} {out}
    (hr : RunWorkloadP c.batches progs names l w0 w' out) :
    (out = .returned (.ok ()) ↔ (runAll l w.runIf (w.inOrder c.plan) w0).2 = .ok ())
    ∧ (out = .returned (.ok ()) → w' = (runAll l w.runIf (w.inOrder c.plan) w0).1) := by
  obtain ⟨res, g1, g2⟩ := runP_run hw h hp hn hr
  obtain ⟨g3, g4⟩ := C56_own_views_partial hw hd h hp hn g1
  exact ⟨g2.trans g3, fun h => g4 (g2.mp h)⟩

theorem group_apart {W ε : Type} {w : Workload W ε} {plan : List (Nat × Nat)} (h : Schedule w plan) (k : Nat) :
    (w.group plan k).Pairwise fun x y => ¬ Conflicts x y := by
  have hnd : (plan.map (·.1)).Nodup := h.once.nodup_iff.mpr List.nodup_range
  have hpw : (plan.filter fun p => p.2 == k).Pairwise fun p q => p.1 ≠ q.1 := (List.pairwise_map.mp hnd).sublist List.filter_sublist
  unfold Workload.group
  apply List.pairwise_filterMap.mpr
  have hpw' : (plan.filter fun p => p.2 == k).Pairwise fun p q => p.1 ≠ q.1 ∧ p ∈ plan ∧ q ∈ plan ∧ p.2 = k ∧ q.2 = k := by
    apply List.Pairwise.imp_of_mem _ hpw
    intro p q hp hq hne
    have hp := List.mem_filter.mp hp
    have hq := List.mem_filter.mp hq
    exact ⟨hne, hp.1, hq.1, by simpa using hp.2, by simpa using hq.2⟩
  refine hpw'.imp ?_
  rintro ⟨pa, pb⟩ ⟨qa, qb⟩ ⟨hne, hp, hq, rfl, hqk⟩ s hs t ht
  subst hqk
  exact h.apart hne hp hq hs ht

/-- C94, when systems access only what they declare: what a group in which a system panicked leaves. Each of its systems that was started has
done all that it does alone, up to its end, its error or its panic; the others have done nothing. -/
theorem C94_effects_partial (hs : Schedule w c.plan) (hd : ∀ s ∈ w.systems, (progOf s.typeId).Within s.borrows) {k : Nat}
    {L : List (WSys (Nat → V) (Stop ε))} (hL : L.Perm (w.group c.plan k)) {flags : List Bool} {w3 w' : Nat → V}
    {ts ts' : List (Task (Nat → V) (Stop ε))} (hts : ts.map (·.status) = (chosen L flags).map (fun s => .todo (progOf s.typeId)))
    (hst : Steps w3 ts w' ts') (ho : ∀ t ∈ ts', t.over) :
    (∀ (i : Nat) s t, (chosen L flags)[i]? = some s → ts'[i]? = some t → t.status ≠ .skipped →
      t.status = .ended ((progOf s.typeId).run w3).2 ∧ ∀ x, Reads s.borrows x → w' x = ((progOf s.typeId).run w3).1 x)
    ∧ ∀ x, (∀ (i : Nat) s t, (chosen L flags)[i]? = some s → ts'[i]? = some t → t.status ≠ .skipped → ¬ Writes s.borrows x) →
      w' x = w3 x := by
  have hsub : (chosen L flags).Sublist L := by
    unfold chosen
    have h1 : (((L.zip flags).filter (·.2)).map (·.1)).Sublist ((L.zip flags).map (·.1)) := List.Sublist.map _ List.filter_sublist
    refine h1.trans ?_
    clear hL hts h1
    induction L generalizing flags with
    | nil => exact .slnil
    | cons s L ih =>
      cases flags with
      | nil => exact List.nil_sublist _
      | cons f fs => exact (ih (flags := fs)).cons_cons s
  have hmem : ∀ s ∈ chosen L flags, s ∈ w.systems := by
    intro s hs'
    have := hL.mem_iff.mp (hsub.subset hs')
    unfold Workload.group at this
    obtain ⟨p, _, hp⟩ := List.mem_filterMap.mp this
    exact List.mem_of_getElem? hp
  have hpw : (chosen L flags).Pairwise fun x y => ¬ Conflicts x y := by
    refine List.Pairwise.sublist hsub ?_
    refine (hL.pairwise_iff ?_).mpr (group_apart hs k)
    intro x y hxy ⟨a, ha, b, hb, hab⟩
    refine hxy ⟨b, hb, a, ha, ?_⟩
    cases hab with
    | share h1 h2 => exact .share h1.symm h2.symm
    | thread h1 h2 => exact .thread h2 h1
    | allLeft h1 => exact .allRight h1
    | allRight h1 => exact .allLeft h1
  have hinv := PoolInv.steps (pr := fun s => progOf s.typeId) hpw (fun s hs' => hd s (hmem s hs')) hst (PoolInv.init hts)
  refine ⟨fun i s t hi ht hne => ?_, fun x hx => hinv.frame x fun i t s ht hi ha => hx i s t hi ht ?_⟩
  · have := hinv.task i t s ht hi
    rcases ho t (List.mem_of_getElem? ht) with h | ⟨r, h⟩
    · exact absurd h hne
    · rw [h] at this ⊢
      obtain ⟨h1, h2⟩ := this
      exact ⟨by rw [h2], h1⟩
  · intro h
    rw [h] at ha
    exact ha

end

/-! ## Concrete workloads -/

namespace Ex

/-- Writes storage 5, then panics. -/
def crash : Prog P (Stop Unit) := .act (put 5 1) fun _ => .done (.error .panic)

/-- Writes storage 7. -/
def fine : Prog P (Stop Unit) := .act (put 7 1) fun _ => .done (.ok ())

/-- Writes storage 6. -/
def lateCrash : Prog P (Stop Unit) := .act (put 6 1) fun _ => .done (.ok ())

def crashOf : Nat → Prog P (Stop Unit)
  | 1 => crash
  | 2 => fine
  | _ => lateCrash

def csys (t : Nat) (bs : List TypeInfo) : WSys P (Stop Unit) :=
  { typeId := t, name := .system t, fn := (crashOf t).run, borrows := bs, tracking := [], runIf := none, tags := [.system t],
    beforeAll := [], afterAll := [], after := [], before := [], uid := 0, reqIn := [], reqBefore := [], reqAfter := [] }

theorem csys_fresh (t : Nat) (bs : List TypeInfo) (h : checkBorrows bs = .ok ()) : Fresh (csys t bs) := by
  refine .ofFn (t := t) (bs := bs) (f := (crashOf t).run) (tr := []) ?_
  unfold WSys.ofFn
  rw [h]; rfl

/-- 1 and 2 run in one batch, 3 after both. 1 panics. -/
def crashDemo : Workload P (Stop Unit) :=
  (((Workload.new (.str 1)).withSystem (csys 1 [viewMut 5])).withSystem (csys 2 [viewMut 7])).withSystem (csys 3 [view 5, view 7, viewMut 6])

theorem crashDemo_built : Built crashDemo :=
  .withSystem (.withSystem (.withSystem (.new _ trivial) (csys_fresh _ _ rfl)) (csys_fresh _ _ rfl)) (csys_fresh _ _ rfl)

theorem crashDemo_created : ∃ c, createWorkload Scheduler.empty crashDemo = .ok c ∧ c.plan = [(0, 0), (1, 0), (2, 1)]
    ∧ c.sch.lookup = [(1, 0), (2, 1), (3, 2)] := by
  have h : (createWorkload Scheduler.empty crashDemo).toOption.map (fun c => (c.plan, c.sch.lookup))
    = some ([(0, 0), (1, 0), (2, 1)], [(1, 0), (2, 1), (3, 2)]) := by rfl
  cases hc : createWorkload Scheduler.empty crashDemo with
  | error e => rw [hc] at h; cases h
  | ok c =>
    rw [hc] at h
    have := Option.some.inj h
    exact ⟨c, rfl, congrArg Prod.fst this, congrArg Prod.snd this⟩

/-- It is run to a panic, and no run of it ends well. -/
example : ∃ c, createWorkload Scheduler.empty crashDemo = .ok c ∧
    (∃ w', RunWorkloadP c.batches [crash, fine, lateCrash] [.system 1, .system 2, .system 3] (.str 1) (fun _ => 0) w' .unwound)
    ∧ ∀ w' out, RunWorkloadP c.batches [crash, fine, lateCrash] [.system 1, .system 2, .system 3] (.str 1) (fun _ => 0) w' out →
      out ≠ .returned (.ok ()) := by
  obtain ⟨c, hc, hplan, hlook⟩ := crashDemo_created
  have hp : c.sch.Lists [crash, fine, lateCrash] crashOf := by
    intro p hp
    rw [hlook] at hp
    simp only [List.mem_cons, List.not_mem_nil, or_false] at hp
    rcases hp with rfl | rfl | rfl <;> rfl
  have hn : c.sch.Lists [.system 1, .system 2, .system 3] Label.system := by
    intro p hp
    rw [hlook] at hp
    simp only [List.mem_cons, List.not_mem_nil, or_false] at hp
    rcases hp with rfl | rfl | rfl <;> rfl
  have hmem : ∀ s ∈ crashDemo.systems, s = csys 1 [viewMut 5] ∨ s = { csys 2 [viewMut 7] with uid := 1 }
      ∨ s = { csys 3 [view 5, view 7, viewMut 6] with uid := 2 } := by
    intro s hs
    have : s ∈ [csys 1 [viewMut 5], { csys 2 [viewMut 7] with uid := 1 }, { csys 3 [view 5, view 7, viewMut 6] with uid := 2 }] := hs
    simpa only [List.mem_cons, List.not_mem_nil, or_false] using this
  have hput : ∀ {bs : List TypeInfo} {s : Nat} {r}, Writes bs s → (Prog.act (put s 1) fun _ => .done r : Prog P (Stop Unit)).Within bs :=
    fun hw => .act (put_within hw).1 (put_within hw).2 (fun _ _ _ => rfl) fun _ => .done _
  have hd : Disciplined crashOf crashDemo := by
    refine ⟨fun s hs => ?_, fun s hs => ?_, fun s hs => ?_⟩
    · rcases hmem s hs with rfl | rfl | rfl <;> rfl
    · rcases hmem s hs with rfl | rfl | rfl
      · exact hput ⟨viewMut 5, List.mem_cons_self, rfl, .inl rfl⟩
      · exact hput ⟨viewMut 7, List.mem_cons_self, rfl, .inl rfl⟩
      · exact hput ⟨viewMut 6, List.mem_cons_of_mem _ (List.mem_cons_of_mem _ List.mem_cons_self), rfl, .inl rfl⟩
    · rcases hmem s hs with rfl | rfl | rfl <;> exact ⟨fun _ _ _ => rfl, fun _ _ _ => rfl, fun _ _ h => h⟩
  have hne : ∀ w' out, RunWorkloadP c.batches [crash, fine, lateCrash] [.system 1, .system 2, .system 3] (.str 1) (fun _ => 0) w' out →
      out ≠ .returned (.ok ()) := by
    intro w' out hr ho
    have := (C94_sequential_partial crashDemo_built (C56_disciplined hd) hc hp hn hr).1.mp ho
    rw [hplan] at this
    cases this
  refine ⟨c, hc, ?_, hne⟩
  obtain ⟨w', out, hr⟩ := C94_total crashDemo_built hc hp hn (.str 1) (fun _ => 0)
  refine ⟨w', ?_⟩
  rcases out with (e | ⟨⟩) | _
  · exfalso
    obtain ⟨_, Ls, _, hperm, hrun⟩ := C94_run crashDemo_built hc hp hn
    have hin : InTurnP crashOf Label.system Ls (fun _ => 0) w' (.returned (.error e)) := hrun _ _ _ _ hr
    obtain ⟨pre, L, post, w1, k1, _, k3⟩ := inTurnP_split hin (fun h => by cases h)
    have hmemL : ∀ s ∈ L, s ∈ crashDemo.systems := by
      intro s hs
      have := (hperm pre.length L (by rw [k1, List.getElem?_append_right (Nat.le_refl _), Nat.sub_self]; rfl)).mem_iff.mp hs
      unfold Workload.group at this
      obtain ⟨p, _, hp⟩ := List.mem_filterMap.mp this
      exact List.mem_of_getElem? hp
    have hcond : ∀ (M : List (WSys P (Stop Unit))) (v : P), (∀ s ∈ M, s.runIf = none) → ∃ fs, askAll M v = (v, .ok fs) := by
      intro M
      induction M with
      | nil => exact fun v _ => ⟨[], rfl⟩
      | cons s M ih =>
        intro v hM
        obtain ⟨fs, h⟩ := ih v (fun t ht => hM t (List.mem_cons_of_mem _ ht))
        refine ⟨true :: fs, ?_⟩
        unfold askAll
        rw [hM s List.mem_cons_self]
        unfold evalC
        dsimp only
        rw [h]
    obtain ⟨fs, hask⟩ := hcond L w1 (fun s hs => by rcases hmem s (hmemL s hs) with rfl | rfl | rfl <;> rfl)
    have noErr : ∀ {n x}, AtOnceP crashOf Label.system L w1 w' (.returned (.error (.run n x))) → False := by
      intro n x k3
      generalize ho : (RunEnd.returned (.error (.run n x)) : RunEnd Unit) = out at k3
      cases k3 with
      | refused ha => rw [hask] at ha; cases ha
      | refusedPanic ha => cases ho
      | ok => cases ho
      | panicked => cases ho
      | failed ha h1 h2 h3 h4 h5 h6 h7 =>
        rename_i e1 i1 s1 t1 ts1 ts1'
        have hs1 : s1 ∈ crashDemo.systems := by
          refine hmemL s1 ?_
          have := List.mem_of_getElem? h5
          unfold chosen at this
          obtain ⟨p, hp, rfl⟩ := List.mem_map.mp this
          exact (List.of_mem_zip (List.mem_filter.mp hp).1).1
        have hL : L.Perm (crashDemo.group c.plan pre.length) :=
          hperm pre.length L (by rw [k1, List.getElem?_append_right (Nat.le_refl _), Nat.sub_self]; rfl)
        have := (C94_effects_partial (C94_run crashDemo_built hc hp hn).1 hd.within hL h1 h2 h3).1 i1 s1 t1 h5 h6 (by rw [h7]; exact fun h => by cases h)
        rw [h7] at this
        rcases hmem s1 hs1 with rfl | rfl | rfl <;> cases this.1
    cases e with
    | missing => cases k3
    | run n x => exact noErr k3
  · exact absurd rfl (hne _ _ hr)
  · exact hr

end Ex

end Verif.Sched
