import Verif.Props.Scheduler
import Verif.Spec.Run

/-!
# Stored batches realise their workload
-/
namespace Verif.Sched

variable {W ε : Type}

theorem insertSystem_lookup (sch : Scheduler W ε) (s : WSys W ε) :
    (s.typeId, (insertSystem sch s).2.index) ∈ (insertSystem sch s).1.lookup
    ∧ (∀ p ∈ sch.lookup, p ∈ (insertSystem sch s).1.lookup) := by
  unfold insertSystem
  dsimp only
  cases hf : sch.lookup.find? (fun p => p.1 == s.typeId) with
  | some p =>
    refine ⟨?_, fun _ h => h⟩
    have h1 := List.mem_of_find?_eq_some hf
    have h2 := List.find?_some hf
    simp only [beq_iff_eq] at h2
    show (s.typeId, p.2) ∈ sch.lookup
    rw [← h2]
    exact h1
  | none =>
    refine ⟨?_, fun p h => ?_⟩
    · show _ ∈ sch.lookup ++ [(s.typeId, sch.systems.length)]
      simp
    · show _ ∈ sch.lookup ++ [(s.typeId, sch.systems.length)]
      simp [h]

theorem insertSystems_mono (ws : List (WSys W ε)) : ∀ (sch : Scheduler W ε), ∀ p ∈ sch.lookup,
    p ∈ (insertSystems sch ws).1.lookup := by
  induction ws with
  | nil => intro sch p hp; exact hp
  | cons s rest ih =>
    intro sch p hp
    exact ih (insertSystem sch s).1 p ((insertSystem_lookup sch s).2 p hp)

theorem insertSystems_lookup (ws : List (WSys W ε)) : ∀ (sch : Scheduler W ε) (i : Nat) x s,
    (insertSystems sch ws).2[i]? = some x → ws[i]? = some s →
    (s.typeId, x.index) ∈ (insertSystems sch ws).1.lookup := by
  induction ws with
  | nil => intro sch i x s hx; cases hx
  | cons s rest ih =>
    intro sch i x t hx ht
    cases i with
    | zero =>
      cases hx; cases ht
      exact insertSystems_mono rest (insertSystem sch s).1 _ (insertSystem_lookup sch s).1
    | succ i => exact ih (insertSystem sch s).1 i x t hx ht

theorem table_of_lists {α : Type} {sch : Scheduler W ε} {w : Workload W ε} {table : List α} {valOf : Nat → α}
    (h : (insertSystems sch w.systems).1.Lists table valOf) : Table sch w table (fun s => valOf s.typeId) := by
  intro i x s hx hs
  exact h _ (insertSystems_lookup w.systems sch i x s hx hs)

theorem table_congr {α : Type} {sch : Scheduler W ε} {w : Workload W ε} {table : List α} {val val' : WSys W ε → α}
    (h : Table sch w table val) (he : ∀ s ∈ w.systems, val s = val' s) : Table sch w table val' := by
  intro i x s hx hs
  rw [h i x s hx hs, he s (List.mem_of_getElem? hs)]

theorem created_schedule {w : Workload W ε} (hw : Built w) {sch : Scheduler W ε} {c : Created W ε}
    (h : createWorkload sch w = .ok c) : Schedule w c.plan where
  once := C49_each_system_once hw h
  batches := C49_batches_agree hw h
  apart := fun hab ha hb hx hy => C50_batch_no_conflict hw h hab ha hb hx hy
  explicit := by
    intro a b he
    obtain ⟨⟨i, j, ka, kb, hij, hi, hj⟩, ka', kb', ha, hb, hlt⟩ := C51_explicit_order hw h he
    have e1 := C51_one_batch hw h ha (List.mem_of_getElem? hi)
    have e2 := C51_one_batch hw h hb (List.mem_of_getElem? hj)
    exact ⟨i, j, ka, kb, hij, by omega, hi, hj⟩
  implicit := fun hi => C52_insertion_order hw h hi

theorem created_lookup {w : Workload W ε} (hw : Built w) {sch : Scheduler W ε} {c : Created W ε}
    (h : createWorkload sch w = .ok c) : c.sch.lookup = (insertSystems sch w.systems).1.lookup := by
  obtain ⟨_, _, ss, o, rfl, hg, ho⟩ := created hw.wf h
  rfl

/-- What was built runs the systems of the workload. -/
theorem created_realises {α : Type} {w : Workload W ε} (hw : Built w) {sch : Scheduler W ε} {c : Created W ε}
    (h : createWorkload sch w = .ok c) {table : List α} {valOf : Nat → α} (hl : c.sch.Lists table valOf)
    {val : WSys W ε → α} (hv : ∀ s ∈ w.systems, valOf s.typeId = val s) : Realises table val c.batches w c.plan := by
  have hsch := created_schedule hw h
  obtain ⟨_, _, ss, o, rfl, hg, ho⟩ := created hw.wf h
  have ht : Table sch w table val := table_congr (table_of_lists hl) hv
  have hlen : o.parallelRunIf.length = o.info.length := by
    have := congrArg List.length ho.parIf
    simpa using this
  refine ⟨hsch, rfl, seqJobs_ok ht hg ho, ?_, ?_, fun k hk => batchJobs_ok ht hg ho hk, ?_⟩
  · intro p hp
    obtain ⟨q, hq, rfl⟩ := List.mem_map.mp hp
    have := ho.bound q hq
    show q.1 < o.parallel.length
    rw [ho.par]
    exact this
  · exact ho.par.trans hlen.symm
  · intro k x r hx hr
    have hx' : o.parallel[k]? = some x := hx
    have hr' : o.parallelRunIf[k]? = some r := hr
    rw [ho.parSys, List.getElem?_map] at hx'
    have h2 := congrArg (fun l => l[k]?) ho.parIf
    simp only [List.getElem?_map] at h2
    cases hi : o.info[k]? with
    | none => rw [hi] at hx'; cases hx'
    | some i =>
      rw [hi] at hx' h2
      rw [hr'] at h2
      cases hx'
      simp only [Option.map_some, Option.some.injEq, Prod.mk.injEq] at h2
      refine ⟨?_, ?_⟩
      · have := congrArg List.length h2.2
        simp only [List.length_map] at this ⊢
        exact this.symm
      · intro hnone
        dsimp only at hnone
        have hi1 : i.1 = none := by
          cases h : i.1 with
          | none => rfl
          | some y => rw [h] at hnone; cases hnone
        rw [hi1] at h2
        have hval := ho.parVal1 _ (List.mem_of_getElem? hr')
        cases hr1 : r.1 with
        | none => rfl
        | some m =>
          have hm := hval m hr1
          rw [hr1] at h2
          have : o.runIfs[m]? = none := h2.1
          rw [List.getElem?_eq_getElem hm] at this
          cases this

/-! ## Growing tables -/

theorem job_mono {α : Type} (b : Batches W ε) {t t' : List α} (h : t <+: t') {i : Nat} {r : Option Nat} {x}
    (hx : b.job t i r = some x) : b.job t' i r = some x := by
  unfold Batches.job at hx ⊢
  cases hf : t[i]? with
  | none => rw [hf] at hx; cases hx
  | some f =>
    rw [hf] at hx
    rw [prefix_get h hf]
    exact hx

theorem map_job_mono {α β : Type} (b : Batches W ε) {t t' : List α} (h : t <+: t') (l : List β) (f : β → Nat × Option Nat)
    (hs : ∀ p ∈ l, ∃ x, b.job t (f p).1 (f p).2 = some x) :
    l.map (fun p => b.job t' (f p).1 (f p).2) = l.map fun p => b.job t (f p).1 (f p).2 := by
  apply List.map_congr_left
  intro p hp
  obtain ⟨x, hx⟩ := hs p hp
  rw [hx, job_mono b h hx]

theorem at_some {α : Type} {w : Workload W ε} {plan : List (Nat × Nat)} (h : Schedule w plan) (val : WSys W ε → α)
    {p : Nat × Nat} (hp : p ∈ plan) : ∃ x, w.at val p.1 = some x := by
  have : p.1 ∈ List.range w.systems.length := (h.once.mem_iff).mp (List.mem_map_of_mem hp)
  have hlt := List.mem_range.mp this
  unfold Workload.at
  rw [List.getElem?_eq_getElem hlt]
  exact ⟨_, rfl⟩

theorem Realises.mono {α : Type} {t t' : List α} {val : WSys W ε → α} {b : Batches W ε} {w : Workload W ε}
    {plan : List (Nat × Nat)} (h : Realises t val b w plan) (hp : t <+: t') : Realises t' val b w plan := by
  have hseq : b.seqJobs t' = b.seqJobs t := by
    unfold Batches.seqJobs
    refine map_job_mono b hp _ (fun p => p) ?_
    intro p hm
    have : b.job t p.1 p.2 ∈ b.seqJobs t := List.mem_map_of_mem hm
    rw [h.seq] at this
    obtain ⟨q, hq, he⟩ := List.mem_map.mp this
    rw [← he]
    exact at_some h.schedule val hq
  have hpar : b.parJobs t' = b.parJobs t := by
    unfold Batches.parJobs
    apply List.map_congr_left
    intro p hm
    have hall : ∀ y ∈ b.batchJobs t p.1 p.2, ∃ x, y = some x := by
      obtain ⟨k, hk⟩ := List.mem_iff_getElem?.mp hm
      have hk' := (List.getElem?_zip_eq_some.mp hk).1
      have hlt : k < b.parallel.length := (List.getElem?_eq_some_iff.mp hk').1
      obtain ⟨jobs, hj, hperm⟩ := h.par k hlt
      unfold Batches.parJobs at hj
      rw [List.getElem?_map, hk] at hj
      cases hj
      intro y hy
      have := hperm.mem_iff.mp hy
      obtain ⟨q, hq, he⟩ := List.mem_map.mp this
      obtain ⟨x, hx⟩ := at_some h.schedule val (List.mem_filter.mp hq).1
      exact ⟨x, by rw [← he]; exact hx⟩
    unfold Batches.batchJobs at hall ⊢
    congr 1
    · cases h1 : p.1.1 with
      | none => rfl
      | some i =>
        obtain ⟨x, hx⟩ := hall (b.job t i p.2.1) (by rw [h1]; simp)
        show [_] = [_]
        rw [hx, job_mono b hp hx]
    · refine map_job_mono b hp _ (fun p => p) ?_
      intro q hq
      exact hall _ (List.mem_append_right _ (List.mem_map_of_mem (f := fun p => b.job t p.1 p.2) hq))
  refine ⟨h.schedule, h.cond, by rw [hseq, h.seq], h.bound, h.lens, ?_, h.fit⟩
  rw [hpar]
  exact h.par

end Verif.Sched
