import Verif.Lemmas.Realise
import Verif.Spec.Registry
import Verif.Lemmas.Isolate

/-!
# Sequential runs and the registry of workloads
-/
namespace Verif.Sched

variable {W ε : Type}

/-! ## Sequential runs -/

theorem filterMap_some {α β : Type} (l : List α) (f : α → Option β) (h : ∀ x ∈ l, ∃ y, f x = some y) :
    l.map f = (l.filterMap f).map some := by
  induction l with
  | nil => rfl
  | cons x rest ih =>
    obtain ⟨y, hy⟩ := h x (by simp)
    rw [List.map_cons, List.filterMap_cons_some hy, List.map_cons, hy, ih fun z hz => h z (List.mem_cons_of_mem _ hz)]

theorem job_zip {b : Batches W ε} {names : List Label} {α : Type} {fns : List α} {i : Nat} {r : Option Nat}
    {j : (Label × α) × Option (Cond W ε)} (h : b.job (names.zip fns) i r = some j) :
    names[i]? = some j.1.1 ∧ fns[i]? = some j.1.2 ∧ b.cond r = some j.2 := by
  unfold Batches.job at h
  cases hz : (names.zip fns)[i]? with
  | none => rw [hz] at h; cases h
  | some p =>
    rw [hz] at h
    cases hc : b.cond r with
    | none => rw [hc] at h; cases h
    | some c =>
      rw [hc] at h
      cases h
      obtain ⟨h1, h2⟩ := List.getElem?_zip_eq_some.mp hz
      exact ⟨h1, h2, rfl⟩

theorem shouldRun_ok {b : Batches W ε} {names : List Label} {i : Nat} {r : Option Nat} {n : Label} {c}
    (hn : names[i]? = some n) (hc : b.cond r = some c) (w : W) :
    shouldRun b names (some i) r w = .ok (match evalC c w with
      | (w, .ok x) => (w, .ok x) | (w, .error e) => (w, .error (.run n e))) := by
  unfold shouldRun
  cases r with
  | none => cases hc; rfl
  | some k =>
    have hc' : b.systemsRunIf[k]?.map some = some c := hc
    cases hk : b.systemsRunIf[k]? with
    | none => rw [hk] at hc'; cases hc'
    | some c' =>
      rw [hk] at hc'
      cases hc'
      dsimp only
      rw [hk]
      unfold evalC
      dsimp only
      rcases c' w with ⟨w', e | x⟩
      · dsimp only
        unfold nameAt
        rw [hn]
      · rfl

theorem runPlace_ok {b : Batches W ε} {names : List Label} {fns : List (SysFn W ε)} {p : Nat × Option Nat}
    {j : NamedJob W ε} (h : b.job (names.zip fns) p.1 p.2 = some j) (w : W) :
    runPlace b fns names p w = .ok (runJob j w) := by
  obtain ⟨h1, h2, h3⟩ := job_zip h
  unfold runPlace runJob
  rw [shouldRun_ok h1 h3]
  rcases evalC j.2 w with ⟨w', e | (_ | _)⟩
  · rfl
  · rfl
  · dsimp only
    unfold runSingle
    rw [h2]
    dsimp only
    rcases j.1.2 w' with ⟨w'', e | x⟩
    · dsimp only
      unfold nameAt
      rw [h1]
    · rfl

theorem runPlaces_ok {b : Batches W ε} {names : List Label} {fns : List (SysFn W ε)} :
    ∀ (ps : List (Nat × Option Nat)) (jobs : List (NamedJob W ε)) (w : W),
    ps.map (fun p => b.job (names.zip fns) p.1 p.2) = jobs.map some →
    runPlaces b fns names ps w = .ok (runJobs jobs w)
  | [], [], w, _ => rfl
  | [], _ :: _, w, h => by cases h
  | _ :: _, [], w, h => by cases h
  | p :: ps, j :: jobs, w, h => by
    simp only [List.map_cons, List.cons.injEq] at h
    unfold runPlaces runJobs
    rw [runPlace_ok h.1]
    rcases runJob j w with ⟨w', e | x⟩
    · rfl
    · exact runPlaces_ok ps jobs w' h.2

theorem runBatches_val {val : WSys W ε → Label × SysFn W ε} {names : List Label} {fns : List (SysFn W ε)} {b : Batches W ε}
    {w : Workload W ε} {plan : List (Nat × Nat)} (h : Realises (names.zip fns) val b w plan) (l : Label) (w0 : W) :
    runBatches b fns names l w0 = .ok (runAll l w.runIf (plan.filterMap fun p => w.at val p.1) w0) := by
  have hseq : ∀ x, runSequential b fns names x = .ok (runJobs (plan.filterMap fun p => w.at val p.1) x) := by
    intro x
    refine runPlaces_ok _ _ x ?_
    have hs := h.seq
    unfold Batches.seqJobs at hs
    rw [hs]
    exact filterMap_some plan _ fun p hp => at_some h.schedule _ hp
  unfold runBatches runAll
  rw [h.cond]
  cases w.runIf with
  | none => exact hseq w0
  | some c =>
    unfold evalC
    dsimp only
    rcases c w0 with ⟨w', e | (_ | _)⟩
    · rfl
    · rfl
    · exact hseq w'

theorem runBatches_ok {names : List Label} {fns : List (SysFn W ε)} {b : Batches W ε} {w : Workload W ε}
    {plan : List (Nat × Nat)} (h : Realises (names.zip fns) (fun s => (s.name, s.fn)) b w plan) (l : Label) (w0 : W) :
    runBatches b fns names l w0 = .ok (runAll l w.runIf (w.inOrder plan) w0) := runBatches_val h l w0

/-! ## Tables -/

/-- The functions and names of the scheduler, by type. -/
structure Tabled (fnOf : Nat → SysFn W ε) (nameOf : Nat → Label) (sch : Scheduler W ε) : Prop where
  len : sch.systemNames.length = sch.systems.length
  lists : sch.Lists (sch.systemNames.zip sch.systems) (fun t => (nameOf t, fnOf t))

theorem insertSystem_tabled {fnOf : Nat → SysFn W ε} {nameOf : Nat → Label} {sch : Scheduler W ε}
    (h : Tabled fnOf nameOf sch) (s : WSys W ε) (hf : s.fn = fnOf s.typeId) (hn : s.name = nameOf s.typeId) :
    Tabled fnOf nameOf (insertSystem sch s).1
    ∧ sch.systemNames.zip sch.systems <+: (insertSystem sch s).1.systemNames.zip (insertSystem sch s).1.systems := by
  unfold insertSystem
  dsimp only
  cases hfind : sch.lookup.find? (fun p => p.1 == s.typeId) with
  | some p => exact ⟨h, List.prefix_rfl⟩
  | none =>
    have hz : (sch.systemNames ++ [s.name]).zip (sch.systems ++ [s.fn])
        = sch.systemNames.zip sch.systems ++ [(s.name, s.fn)] := by
      rw [List.zip_append h.len]; rfl
    have hp : sch.systemNames.zip sch.systems <+: (sch.systemNames ++ [s.name]).zip (sch.systems ++ [s.fn]) := by
      rw [hz]; exact List.prefix_append _ _
    refine ⟨⟨?_, ?_⟩, hp⟩
    · show (sch.systemNames ++ [s.name]).length = (sch.systems ++ [s.fn]).length
      simp [h.len]
    · intro p hpm
      show ((sch.systemNames ++ [s.name]).zip (sch.systems ++ [s.fn]))[p.2]? = _
      rcases List.mem_append.mp (show p ∈ sch.lookup ++ [(s.typeId, sch.systems.length)] from hpm) with hpm | hpm
      · exact prefix_get hp (h.lists p hpm)
      · rw [List.mem_singleton.mp hpm, hz]
        have : sch.systems.length = (sch.systemNames.zip sch.systems).length := by
          rw [List.length_zip, h.len]; omega
        dsimp only
        rw [this]
        simp [hf, hn]

theorem insertSystems_tabled {fnOf : Nat → SysFn W ε} {nameOf : Nat → Label} (ws : List (WSys W ε)) :
    ∀ (sch : Scheduler W ε), Tabled fnOf nameOf sch →
    (∀ s ∈ ws, s.fn = fnOf s.typeId) → (∀ s ∈ ws, s.name = nameOf s.typeId) →
    Tabled fnOf nameOf (insertSystems sch ws).1
    ∧ sch.systemNames.zip sch.systems <+:
      (insertSystems sch ws).1.systemNames.zip (insertSystems sch ws).1.systems := by
  induction ws with
  | nil => intro sch h _ _; exact ⟨h, List.prefix_rfl⟩
  | cons s rest ih =>
    intro sch h hf hn
    obtain ⟨h1, h2⟩ := insertSystem_tabled h s (hf s (by simp)) (hn s (by simp))
    obtain ⟨h3, h4⟩ := ih (insertSystem sch s).1 h1 (fun t ht => hf t (List.mem_cons_of_mem _ ht))
      (fun t ht => hn t (List.mem_cons_of_mem _ ht))
    exact ⟨h3, h2.trans h4⟩

theorem insertSystems_prefix (ws : List (WSys W ε)) : ∀ (sch : Scheduler W ε), sch.systemNames.length = sch.systems.length →
    sch.systemNames.zip sch.systems <+: (insertSystems sch ws).1.systemNames.zip (insertSystems sch ws).1.systems := by
  induction ws with
  | nil => intro sch _; exact List.prefix_rfl
  | cons s rest ih =>
    intro sch hlen
    have h1 : (insertSystem sch s).1.systemNames.length = (insertSystem sch s).1.systems.length
        ∧ sch.systemNames.zip sch.systems <+: (insertSystem sch s).1.systemNames.zip (insertSystem sch s).1.systems := by
      unfold insertSystem
      dsimp only
      cases hfind : sch.lookup.find? (fun p => p.1 == s.typeId) with
      | some p => exact ⟨hlen, List.prefix_rfl⟩
      | none =>
        refine ⟨by simp [hlen], ?_⟩
        show _ <+: (sch.systemNames ++ [s.name]).zip (sch.systems ++ [s.fn])
        rw [List.zip_append hlen]
        exact List.prefix_append _ _
    exact h1.2.trans (ih _ h1.1)

/-! ## The registry -/

theorem buildable_iff {w : Workload W ε} : Buildable w ↔ AllMet w ∧ ¬ Cyclic w := by
  constructor
  · intro h
    exact ⟨fun i s hs => ⟨fun l hl => h.present s (List.mem_of_getElem? hs) l hl, fun l hl => h.before i s hs l hl,
      fun l hl => h.after i s hs l hl⟩, h.acyclic⟩
  · rintro ⟨h, ha⟩
    refine ⟨?_, fun i s hs => (h i s hs).2.1, fun i s hs => (h i s hs).2.2, ha⟩
    intro s hs l hl
    obtain ⟨i, hi⟩ := List.mem_iff_getElem?.mp hs
    exact (h i s hi).1 l hl

/-- What `add_to_world` does. -/
theorem add_cases {w : Workload W ε} (hw : Built w) (sch : Scheduler W ε) :
    (sch.contains w.name = true ∧ sch.add w = (sch, .error (.err .alreadyExists)))
    ∨ (sch.contains w.name = false ∧ ¬ Buildable w ∧ ∃ e, sch.add w = ((insertSystems sch w.systems).1, .error (.err e))
        ∧ e ≠ .alreadyExists)
    ∨ (sch.contains w.name = false ∧ Buildable w ∧ ∃ c, createWorkload sch w = .ok c ∧ sch.add w = (c.sch.insertInfo w.name c.info, .ok ())
        ∧ c.sch = (insertSystems sch w.systems).1.store w.name c.batches) := by
  cases outcome hw.wf sch with
  | exists_ h e =>
    refine .inl ⟨h, ?_⟩
    unfold Scheduler.add; rw [e]
  | missingIn h i s labels hs e hne hl =>
    refine .inr (.inl ⟨h, ?_, ?_⟩)
    rotate_left
    · refine ⟨_, by unfold Scheduler.add; rw [e], fun h => by cases h⟩
    · intro hb
      cases labels with
      | nil => exact absurd rfl hne
      | cons l t =>
        obtain ⟨h1, h2⟩ := (hl l).mp (by simp)
        exact h2 (hb.present s (List.mem_of_getElem? hs) l h1)
  | missingBefore h _ i s labels hs e hne hl =>
    refine .inr (.inl ⟨h, ?_, ?_⟩)
    rotate_left
    · refine ⟨_, by unfold Scheduler.add; rw [e], fun h => by cases h⟩
    · intro hb
      cases labels with
      | nil => exact absurd rfl hne
      | cons l t =>
        obtain ⟨h1, h2⟩ := (hl l).mp (by simp)
        exact h2 (hb.before i s hs l h1)
  | missingAfter h _ _ i s labels hs e hne hl =>
    refine .inr (.inl ⟨h, ?_, ?_⟩)
    rotate_left
    · refine ⟨_, by unfold Scheduler.add; rw [e], fun h => by cases h⟩
    · intro hb
      cases labels with
      | nil => exact absurd rfl hne
      | cons l t =>
        obtain ⟨h1, h2⟩ := (hl l).mp (by simp)
        exact h2 (hb.after i s hs l h1)
  | cycle h _ names e hc =>
    refine .inr (.inl ⟨h, ?_, ?_⟩)
    rotate_left
    · refine ⟨_, by unfold Scheduler.add; rw [e], fun h => by cases h⟩
    · exact fun hb => hb.acyclic hc
  | ok h hm ss o e hg ho =>
    refine .inr (.inr ⟨h, buildable_iff.mpr ⟨hm, acyclic hg ho⟩, _, e, ?_, rfl⟩)
    unfold Scheduler.add; rw [e]

theorem contains_iff (sch : Scheduler W ε) (l : Label) : sch.contains l = true ↔ ∃ b, sch.workload l = some b := by
  unfold Scheduler.contains Scheduler.workload
  rw [List.any_eq_true]
  constructor
  · rintro ⟨p, hp, h⟩
    cases hf : sch.workloads.find? (fun p => decide (p.1 = l)) with
    | none =>
      have := List.find?_eq_none.mp hf p hp
      exact absurd h this
    | some q => exact ⟨_, rfl⟩
  · rintro ⟨b, hb⟩
    cases hf : sch.workloads.find? (fun p => decide (p.1 = l)) with
    | none => rw [hf] at hb; cases hb
    | some q =>
      refine ⟨q, List.mem_of_find?_eq_some hf, ?_⟩
      have := List.find?_some hf
      exact this

/-- The code's scheduler and the user's registry. `val` is what runs for a system, with its name. -/
structure SimBy (val : WSys W ε → Label × SysFn W ε) (fnOf : Nat → SysFn W ε) (nameOf : Nat → Label) (sch : Scheduler W ε)
    (r : Registry W ε) : Prop where
  tabled : Tabled fnOf nameOf sch
  absent : ∀ l, sch.workload l = none ↔ r.get l = none
  present : ∀ l b w, sch.workload l = some b → r.get l = some w → Built w
    ∧ (∀ s ∈ w.systems, (nameOf s.typeId, fnOf s.typeId) = val s)
    ∧ Buildable w ∧ ∃ plan, w.Alone plan ∧ Realises (sch.systemNames.zip sch.systems) val b w plan
  empty : sch.workloads = [] ↔ r.default = none
  default : ∀ d, r.default = some d → sch.default = d ∧ r.get d ≠ none

theorem workload_append (ws : List (Label × Batches W ε)) (n : Label) (b : Batches W ε) (l : Label)
    (hn : ∀ p ∈ ws, p.1 ≠ n) :
    ((ws ++ [(n, b)]).find? (fun p => decide (p.1 = l))).map (·.2)
      = if l = n then some b else (ws.find? (fun p => decide (p.1 = l))).map (·.2) := by
  rw [List.find?_append]
  by_cases hl : l = n
  · subst hl
    have : ws.find? (fun p => decide (p.1 = l)) = none := by
      rw [List.find?_eq_none]
      intro p hp
      simp [hn p hp]
    rw [this]
    simp
  · rw [if_neg hl]
    have h2 : [(n, b)].find? (fun p => decide (p.1 = l)) = none := by
      rw [List.find?_eq_none]
      intro p hp
      rw [List.mem_singleton.mp hp]
      simp [Ne.symm hl]
    rw [h2]
    simp

theorem workload_filter (ws : List (Label × Batches W ε)) (n l : Label) :
    ((ws.filter fun p => decide (p.1 ≠ n)).find? (fun p => decide (p.1 = l))).map (·.2)
      = if l = n then none else (ws.find? (fun p => decide (p.1 = l))).map (·.2) := by
  rw [List.find?_filter]
  by_cases hl : l = n
  · subst hl
    rw [if_pos rfl]
    have : ws.find? (fun a => decide (a.1 ≠ l) && decide (a.1 = l)) = none := by
      rw [List.find?_eq_none]
      intro p hp
      simp
    simp
  · rw [if_neg hl]
    congr 2
    funext p
    by_cases h : p.1 = l
    · simp [h, hl]
    · simp [h]

theorem rename_workload {sch : Scheduler W ε} {old new : Label} {b : Batches W ε} (h : sch.workload old = some b) (l : Label) :
    (sch.rename old new).workload l
      = if l = new then some b else if l = old then none else sch.workload l := by
  unfold Scheduler.rename
  rw [h]
  dsimp only
  show (((((sch.workloads.filter fun p => decide (p.1 ≠ old)).filter fun p => decide (p.1 ≠ new)) ++ [(new, b)]).find?
    (fun p => decide (p.1 = l))).map (·.2)) = _
  rw [workload_append]
  · rw [workload_filter, workload_filter]
    by_cases h1 : l = new
    · simp [h1]
    · simp only [if_neg h1]
      rfl
  · intro p hp
    simpa using (List.mem_filter.mp hp).2

variable {val : WSys W ε → Label × SysFn W ε}

theorem SimBy.insertInfo {fnOf : Nat → SysFn W ε} {nameOf : Nat → Label} {sch : Scheduler W ε} {r : Registry W ε}
    (h : SimBy val fnOf nameOf sch r) (l : Label) (i : WorkloadInfo) : SimBy val fnOf nameOf (sch.insertInfo l i) r :=
  ⟨⟨h.tabled.len, h.tabled.lists⟩, h.absent, h.present, h.empty, h.default⟩

theorem SimBy.start (val : WSys W ε → Label × SysFn W ε) (fnOf : Nat → SysFn W ε) (nameOf : Nat → Label) :
    SimBy val fnOf nameOf Scheduler.empty Registry.empty := by
  refine ⟨⟨rfl, fun p hp => by cases hp⟩, ?_, ?_, ?_, ?_⟩
  · intro l; exact ⟨fun _ => rfl, fun _ => rfl⟩
  · intro l b w h; cases h
  · exact ⟨fun _ => rfl, fun _ => rfl⟩
  · intro d h; cases h

theorem SimBy.step {fnOf : Nat → SysFn W ε} {nameOf : Nat → Label} {sch : Scheduler W ε} {r : Registry W ε}
    (h : SimBy val fnOf nameOf sch r) (op : RegOp W ε)
    (hop : ∀ w, op = .add w → Built w ∧ (∀ s ∈ w.systems, (nameOf s.typeId, fnOf s.typeId) = val s)
      ∧ (sch.contains w.name = false → Tabled fnOf nameOf (insertSystems sch w.systems).1)) :
    SimBy val fnOf nameOf (sch.step op) (r.step op) := by
  have hcont : ∀ l, sch.contains l = true ↔ r.get l ≠ none := by
    intro l
    rw [contains_iff]
    constructor
    · rintro ⟨b, hb⟩ hn
      rw [(h.absent l).mpr hn] at hb
      cases hb
    · intro hn
      cases hb : sch.workload l with
      | none => exact absurd ((h.absent l).mp hb) hn
      | some b => exact ⟨b, rfl⟩
  cases op with
  | add w =>
    obtain ⟨hw, hf, hn⟩ := hop w rfl
    have t2 := insertSystems_prefix w.systems sch h.tabled.len
    rcases add_cases hw sch with ⟨hc, e⟩ | ⟨hc, hb, er, e, _⟩ | ⟨hc, hb, c, he, e, hst⟩
    · have e1 : sch.step (.add w) = sch := by show (sch.add w).1 = sch; rw [e]
      have e2 : r.step (.add w) = r := by
        unfold Registry.step
        dsimp only
        rw [if_neg]
        rintro ⟨h1, _⟩
        exact (hcont _).mp hc h1
      rw [e1, e2]
      exact h
    · have e1 : sch.step (.add w) = (insertSystems sch w.systems).1 := by show (sch.add w).1 = _; rw [e]
      have e2 : r.step (.add w) = r := by
        unfold Registry.step
        dsimp only
        rw [if_neg]
        rintro ⟨_, h2⟩
        exact hb h2
      rw [e1, e2]
      have t1 := hn hc
      have hg := (insertSystems_ok w.systems sch).2.2
      have hwl : ∀ l, (insertSystems sch w.systems).1.workload l = sch.workload l := by
        intro l; unfold Scheduler.workload; rw [hg.workloads]
      refine ⟨t1, ?_, ?_, ?_, ?_⟩
      · intro l; rw [hwl]; exact h.absent l
      · intro l b v h1 h2
        rw [hwl] at h1
        obtain ⟨a1, a2, a4, plan, ha, hr⟩ := h.present l b v h1 h2
        exact ⟨a1, a2, a4, plan, ha, hr.mono t2⟩
      · rw [hg.workloads]; exact h.empty
      · rw [hg.default]; exact h.default
    · have e1 : sch.step (.add w) = c.sch.insertInfo w.name c.info := by show (sch.add w).1 = _; rw [e]
      have hfree : r.get w.name = none := by
        cases hr : r.get w.name with
        | none => rfl
        | some x =>
          have := (hcont w.name).mpr (by rw [hr]; simp)
          rw [hc] at this; cases this
      have e2 : r.step (.add w) = { get := fun l => if l = w.name then some w else r.get l
                                    default := match r.default with | some d => some d | none => some w.name } := by
        unfold Registry.step
        dsimp only
        rw [if_pos ⟨hfree, hb⟩]
        congr 1
      rw [e1, e2]
      refine SimBy.insertInfo ?_ _ _
      have t1 := hn hc
      have hg := (insertSystems_ok w.systems sch).2.2
      have hwl : ∀ l, c.sch.workload l = if l = w.name then some c.batches else sch.workload l := by
        intro l
        rw [hst]
        show ((((insertSystems sch w.systems).1.workloads ++ [(w.name, c.batches)]).find?
          (fun p => decide (p.1 = l))).map (·.2)) = _
        rw [workload_append, hg.workloads]
        · rfl
        · rw [hg.workloads]
          intro p hp heq
          have : sch.contains w.name = true := by
            unfold Scheduler.contains
            rw [List.any_eq_true]
            exact ⟨p, hp, by simp [heq]⟩
          rw [hc] at this; cases this
      have htab : Tabled fnOf nameOf c.sch := by
        rw [hst]; exact ⟨t1.len, t1.lists⟩
      have hpre : sch.systemNames.zip sch.systems <+: c.sch.systemNames.zip c.sch.systems := by
        rw [hst]; exact t2
      refine ⟨htab, ?_, ?_, ?_, ?_⟩
      · intro l
        rw [hwl]
        by_cases hl : l = w.name
        · simp [hl]
        · simp only [if_neg hl]; exact h.absent l
      · intro l b v h1 h2
        rw [hwl] at h1
        by_cases hl : l = w.name
        · rw [if_pos hl] at h1
          dsimp only at h2
          rw [if_pos hl] at h2
          cases h1; cases h2
          refine ⟨hw, hf, hb, c.plan, ?_, ?_⟩
          · rcases createWorkload_same Scheduler.empty sch w rfl hc with ⟨er, _, h2⟩ | ⟨c0, c1, h1, h2, h3⟩
            · rw [he] at h2; cases h2
            · rw [he] at h2; cases h2; exact ⟨c0, h1, h3⟩
          exact created_realises hw he htab.lists hf
        · rw [if_neg hl] at h1
          dsimp only at h2
          rw [if_neg hl] at h2
          obtain ⟨a1, a2, a4, plan, ha, hr⟩ := h.present l b v h1 h2
          exact ⟨a1, a2, a4, plan, ha, hr.mono hpre⟩
      · constructor
        · intro h1
          rw [hst] at h1
          have : (insertSystems sch w.systems).1.workloads ++ [(w.name, c.batches)] = [] := h1
          simp at this
        · intro h1
          dsimp only at h1
          cases hd : r.default <;> rw [hd] at h1 <;> cases h1
      · intro d hd
        dsimp only at hd ⊢
        have hdef : c.sch.default = if sch.workloads.isEmpty then w.name else sch.default := by
          rw [hst]
          show (if (insertSystems sch w.systems).1.workloads.isEmpty then w.name else (insertSystems sch w.systems).1.default) = _
          rw [hg.workloads, hg.default]
        cases hrd : r.default with
        | none =>
          rw [hrd] at hd
          cases hd
          rw [hdef, h.empty.mpr hrd]
          exact ⟨rfl, by simp⟩
        | some d' =>
          rw [hrd] at hd
          cases hd
          obtain ⟨g1, g2⟩ := h.default d hrd
          have hne : sch.workloads.isEmpty = false := by
            cases hws : sch.workloads with
            | nil => rw [h.empty.mp hws] at hrd; cases hrd
            | cons _ _ => rfl
          rw [hdef, hne]
          refine ⟨g1, ?_⟩
          by_cases hl : d = w.name
          · simp [hl]
          · rw [if_neg hl]; exact g2
  | setDefault l =>
    by_cases hl : r.get l = none
    · have e2 : r.step (.setDefault l) = r := by
        unfold Registry.step; dsimp only; rw [if_pos hl]
      have hc : sch.contains l = false := by
        cases hc : sch.contains l with
        | false => rfl
        | true => exact absurd hl ((hcont l).mp hc)
      have e1 : sch.step (.setDefault l) = sch := by
        show (sch.setDefault l).getD sch = sch
        unfold Scheduler.setDefault; rw [hc]; rfl
      rw [e1, e2]
      exact h
    · have e2 : r.step (.setDefault l) = { r with default := some l } := by
        unfold Registry.step; dsimp only; rw [if_neg hl]
      have e1 : sch.step (.setDefault l) = { sch with default := l } := by
        show (sch.setDefault l).getD sch = _
        unfold Scheduler.setDefault; rw [(hcont l).mpr hl]; rfl
      rw [e1, e2]
      refine ⟨⟨h.tabled.len, h.tabled.lists⟩, h.absent, h.present, ?_, ?_⟩
      · constructor
        · intro h1
          have hh := (hcont l).mpr hl
          have h1' : sch.workloads = [] := h1
          unfold Scheduler.contains at hh
          rw [h1'] at hh
          cases hh
        · intro h1; cases h1
      · intro d hd
        cases hd
        exact ⟨rfl, hl⟩
  | rename old new =>
    cases hb : sch.workload old with
    | none =>
      have e1 : sch.step (.rename old new) = sch := by
        show sch.rename old new = sch
        unfold Scheduler.rename; rw [hb]
      have e2 : r.step (.rename old new) = r := by
        unfold Registry.step; dsimp only
        rw [(h.absent old).mp hb]
      rw [e1, e2]
      exact h
    | some b =>
      cases hr : r.get old with
      | none => rw [(h.absent old).mpr hr] at hb; cases hb
      | some w =>
        have hwl := rename_workload (new := new) hb
        have e2 : r.step (.rename old new) =
            { get := fun l => if l = new then some w else if l = old then none else r.get l
              default := if r.default = some old then some new else r.default } := by
          unfold Registry.step; dsimp only
          rw [hr]
        have es : (sch.rename old new).systems = sch.systems ∧ (sch.rename old new).systemNames = sch.systemNames
            ∧ (sch.rename old new).lookup = sch.lookup ∧ (sch.rename old new).workloads ≠ []
            ∧ (sch.rename old new).default = if sch.default = old then new else sch.default := by
          unfold Scheduler.rename
          rw [hb]
          exact ⟨rfl, rfl, rfl, by simp, rfl⟩
        show SimBy val fnOf nameOf (sch.rename old new) _
        rw [e2]
        refine ⟨⟨?_, ?_⟩, ?_, ?_, ?_, ?_⟩
        · rw [es.2.1, es.1]; exact h.tabled.len
        · have := h.tabled.lists
          unfold Scheduler.Lists at this ⊢
          rw [es.2.1, es.1, es.2.2.1]
          exact this
        · intro l
          rw [hwl]
          dsimp only
          by_cases h1 : l = new
          · simp [h1]
          · by_cases h2 : l = old
            · simp only [if_neg h1, if_pos h2]
            · simp only [if_neg h1, if_neg h2]; exact h.absent l
        · intro l b' v h1 h2
          rw [hwl] at h1
          rw [es.2.1, es.1]
          dsimp only at h2
          by_cases h3 : l = new
          · rw [if_pos h3] at h1 h2
            cases h1; cases h2
            exact h.present old b w hb hr
          · rw [if_neg h3] at h1 h2
            by_cases h4 : l = old
            · rw [if_pos h4] at h1; cases h1
            · rw [if_neg h4] at h1 h2
              exact h.present l b' v h1 h2
        · constructor
          · intro h1; exact absurd h1 es.2.2.2.1
          · intro h1
            dsimp only at h1
            by_cases h2 : r.default = some old
            · rw [if_pos h2] at h1; cases h1
            · rw [if_neg h2] at h1
              have := h.empty.mpr h1
              unfold Scheduler.workload at hb
              rw [this] at hb
              cases hb
        · intro d hd
          dsimp only at hd ⊢
          by_cases h2 : r.default = some old
          · rw [if_pos h2] at hd
            cases hd
            obtain ⟨g1, g2⟩ := h.default old h2
            refine ⟨by rw [es.2.2.2.2, if_pos g1], ?_⟩
            simp
          · rw [if_neg h2] at hd
            obtain ⟨g1, g2⟩ := h.default d hd
            have hne : d ≠ old := by rintro rfl; exact h2 hd
            refine ⟨by rw [es.2.2.2.2, if_neg (by rw [g1]; exact hne)]; exact g1, ?_⟩
            by_cases h3 : d = new
            · simp [h3]
            · rw [if_neg h3, if_neg hne]
              exact g2

/-- The case of systems known by their types. -/
abbrev Sim (fnOf : Nat → SysFn W ε) (nameOf : Nat → Label) (sch : Scheduler W ε) (r : Registry W ε) : Prop :=
  SimBy (fun s => (s.name, s.fn)) fnOf nameOf sch r

theorem sim_after {fnOf : Nat → SysFn W ε} {nameOf : Nat → Label} (ops : List (RegOp W ε)) (h : Fair fnOf nameOf ops) :
    Sim fnOf nameOf (Scheduler.after ops) (Registry.after ops) := by
  unfold Scheduler.after Registry.after
  have key : ∀ (ops : List (RegOp W ε)) sch r, Fair fnOf nameOf ops → Sim fnOf nameOf sch r →
      Sim fnOf nameOf (ops.foldl Scheduler.step sch) (ops.foldl Registry.step r) := by
    intro ops
    induction ops with
    | nil => intro sch r _ h; exact h
    | cons op rest ih =>
      intro sch r hf hs
      refine ih _ _ (fun w hw => hf w (List.mem_cons_of_mem _ hw)) (hs.step op ?_)
      rintro w rfl
      obtain ⟨h1, h2, h3⟩ := hf w (by simp)
      refine ⟨h1, fun s hm => ?_, fun _ => (insertSystems_tabled w.systems sch hs.tabled h2 h3).1⟩
      rw [h2 s hm, h3 s hm]
  exact key ops _ _ h (SimBy.start _ fnOf nameOf)

/-! ## Histories of any workloads -/

/-- The functions and names the scheduler holds are those of systems with the property `P`; each type has one place. -/
structure Keyed (P : WSys W ε → Prop) (sch : Scheduler W ε) : Prop where
  len : sch.systemNames.length = sch.systems.length
  nodup : (sch.lookup.map (·.1)).Nodup
  origin : ∀ p ∈ sch.lookup, ∃ s, P s ∧ s.typeId = p.1 ∧ (sch.systemNames.zip sch.systems)[p.2]? = some (s.name, s.fn)

/-- More functions than before, the others in their places. -/
def Extends (sch sch' : Scheduler W ε) : Prop :=
  sch.systemNames.zip sch.systems <+: sch'.systemNames.zip sch'.systems ∧ ∀ p ∈ sch.lookup, p ∈ sch'.lookup

theorem Extends.rfl (sch : Scheduler W ε) : Extends sch sch := ⟨List.prefix_rfl, fun _ h => h⟩

theorem Extends.trans {a b c : Scheduler W ε} (h : Extends a b) (h' : Extends b c) : Extends a c :=
  ⟨h.1.trans h'.1, fun p hp => h'.2 p (h.2 p hp)⟩

theorem insertSystem_keyed {P : WSys W ε → Prop} {sch : Scheduler W ε} (h : Keyed P sch) (s : WSys W ε) (hs : P s) :
    Keyed P (insertSystem sch s).1 ∧ Extends sch (insertSystem sch s).1 := by
  unfold insertSystem
  dsimp only
  cases hfind : sch.lookup.find? (fun p => p.1 == s.typeId) with
  | some p => exact ⟨h, .rfl _⟩
  | none =>
    have hz : (sch.systemNames ++ [s.name]).zip (sch.systems ++ [s.fn])
        = sch.systemNames.zip sch.systems ++ [(s.name, s.fn)] := by
      rw [List.zip_append h.len]; rfl
    have hp : sch.systemNames.zip sch.systems <+: (sch.systemNames ++ [s.name]).zip (sch.systems ++ [s.fn]) := by
      rw [hz]; exact List.prefix_append _ _
    refine ⟨⟨by simp [h.len], ?_, ?_⟩, hp, fun p hp => List.mem_append_left _ hp⟩
    · show ((sch.lookup ++ [(s.typeId, sch.systems.length)]).map (·.1)).Nodup
      rw [List.map_append, List.nodup_append]
      refine ⟨h.nodup, by simp, ?_⟩
      intro a ha b hb
      rw [List.map_singleton, List.mem_singleton] at hb
      obtain ⟨p, hp, rfl⟩ := List.mem_map.mp ha
      have := List.find?_eq_none.mp hfind p hp
      rw [hb]
      simpa using this
    · intro p hpm
      show ∃ t, P t ∧ t.typeId = p.1 ∧ ((sch.systemNames ++ [s.name]).zip (sch.systems ++ [s.fn]))[p.2]? = some (t.name, t.fn)
      rcases List.mem_append.mp (show p ∈ sch.lookup ++ [(s.typeId, sch.systems.length)] from hpm) with hpm | hpm
      · obtain ⟨t, h1, h2, h3⟩ := h.origin p hpm
        exact ⟨t, h1, h2, prefix_get hp h3⟩
      · rw [List.mem_singleton.mp hpm, hz]
        have : sch.systems.length = (sch.systemNames.zip sch.systems).length := by
          rw [List.length_zip, h.len]; omega
        refine ⟨s, hs, rfl, ?_⟩
        dsimp only
        rw [this]
        simp

theorem insertSystems_keyed {P : WSys W ε → Prop} (ws : List (WSys W ε)) : ∀ {sch : Scheduler W ε}, Keyed P sch → (∀ s ∈ ws, P s) →
    Keyed P (insertSystems sch ws).1 ∧ Extends sch (insertSystems sch ws).1 := by
  induction ws with
  | nil => intro sch h _; exact ⟨h, .rfl _⟩
  | cons s rest ih =>
    intro sch h hp
    obtain ⟨h1, h2⟩ := insertSystem_keyed h s (hp s (by simp))
    obtain ⟨h3, h4⟩ := ih h1 fun t ht => hp t (List.mem_cons_of_mem _ ht)
    exact ⟨h3, h2.trans h4⟩

theorem Keyed.step {P : WSys W ε → Prop} {sch : Scheduler W ε} (h : Keyed P sch) (op : RegOp W ε)
    (hop : ∀ w, op = .add w → Built w ∧ ∀ s ∈ w.systems, P s) :
    Keyed P (sch.step op) ∧ Extends sch (sch.step op)
    ∧ ∀ w, op = .add w → sch.contains w.name = false → Extends (insertSystems sch w.systems).1 (sch.step op) := by
  cases op with
  | add w =>
    obtain ⟨hw, hP⟩ := hop w rfl
    obtain ⟨k1, k2⟩ := insertSystems_keyed w.systems h hP
    rcases add_cases hw sch with ⟨hc, e⟩ | ⟨hc, hb, er, e, _⟩ | ⟨hc, hb, c, he, e, hst⟩
    · have e1 : sch.step (.add w) = sch := by show (sch.add w).1 = sch; rw [e]
      rw [e1]
      exact ⟨h, .rfl _, fun w' hw' hf => by cases hw'; rw [hc] at hf; cases hf⟩
    · have e1 : sch.step (.add w) = (insertSystems sch w.systems).1 := by show (sch.add w).1 = _; rw [e]
      rw [e1]
      exact ⟨k1, k2, fun w' hw' _ => by cases hw'; exact .rfl _⟩
    · have e1 : sch.step (.add w) = c.sch.insertInfo w.name c.info := by show (sch.add w).1 = _; rw [e]
      rw [e1, hst]
      exact ⟨⟨k1.len, k1.nodup, k1.origin⟩, k2, fun w' hw' _ => by cases hw'; exact .rfl _⟩
  | setDefault l =>
    have : sch.step (.setDefault l) = sch ∨ sch.step (.setDefault l) = { sch with default := l } := by
      show (sch.setDefault l).getD sch = sch ∨ (sch.setDefault l).getD sch = _
      unfold Scheduler.setDefault
      cases sch.contains l
      · exact .inl rfl
      · exact .inr rfl
    rcases this with e | e
    · rw [e]; exact ⟨h, .rfl _, fun w hw => by cases hw⟩
    · rw [e]; exact ⟨⟨h.len, h.nodup, h.origin⟩, .rfl _, fun w hw => by cases hw⟩
  | rename old new =>
    have es : (sch.rename old new).systems = sch.systems ∧ (sch.rename old new).systemNames = sch.systemNames
        ∧ (sch.rename old new).lookup = sch.lookup := by
      unfold Scheduler.rename
      cases sch.workload old with
      | none => exact ⟨rfl, rfl, rfl⟩
      | some b => exact ⟨rfl, rfl, rfl⟩
    show Keyed P (sch.rename old new) ∧ Extends sch (sch.rename old new) ∧ _
    refine ⟨⟨by rw [es.1, es.2.1]; exact h.len, by rw [es.2.2]; exact h.nodup, ?_⟩, ⟨?_, ?_⟩, fun w hw => by cases hw⟩
    · rw [es.1, es.2.1, es.2.2]; exact h.origin
    · rw [es.1, es.2.1]; exact List.prefix_rfl
    · rw [es.2.2]; exact fun p hp => hp

/-- The functions and names of a later scheduler are those of an earlier one. -/
theorem Keyed.tabled {P : WSys W ε → Prop} {fnOf : Nat → SysFn W ε} {nameOf : Nat → Label} {sch sch' : Scheduler W ε}
    (h : Keyed P sch) (he : Extends sch sch') (ht : Tabled fnOf nameOf sch') : Tabled fnOf nameOf sch := by
  refine ⟨h.len, fun p hp => ?_⟩
  obtain ⟨s, _, _, hg⟩ := h.origin p hp
  rw [hg, ← ht.lists p (he.2 p hp)]
  exact (prefix_get he.1 hg).symm

theorem nodup_fst_eq {l : List (Nat × Nat)} (h : (l.map (·.1)).Nodup) {p q : Nat × Nat} (hp : p ∈ l) (hq : q ∈ l) (he : p.1 = q.1) :
    p = q := by
  induction l with
  | nil => cases hp
  | cons x rest ih =>
    rw [List.map_cons, List.nodup_cons] at h
    rcases List.mem_cons.mp hp with rfl | hp' <;> rcases List.mem_cons.mp hq with rfl | hq'
    · rfl
    · exact absurd (List.mem_map.mpr ⟨q, hq', he.symm⟩) h.1
    · exact absurd (List.mem_map.mpr ⟨p, hp', he⟩) h.1
    · exact ih h.2 hp' hq'

/-- What runs for the systems of each type, and its name: what the scheduler holds. -/
theorem Keyed.choose {P : WSys W ε → Prop} {sch : Scheduler W ε} (h : Keyed P sch) :
    ∃ (fnOf : Nat → SysFn W ε) (nameOf : Nat → Label), Tabled fnOf nameOf sch
      ∧ ∀ s, P s → ∃ t, P t ∧ t.typeId = s.typeId ∧ t.fn = fnOf s.typeId ∧ t.name = nameOf s.typeId := by
  have key : ∀ t : Nat, ∃ v : Label × SysFn W ε,
      (∀ p ∈ sch.lookup, p.1 = t → (sch.systemNames.zip sch.systems)[p.2]? = some v)
      ∧ ∀ s, P s → s.typeId = t → ∃ u, P u ∧ u.typeId = t ∧ u.fn = v.2 ∧ u.name = v.1 := by
    intro t
    by_cases h1 : ∃ p ∈ sch.lookup, p.1 = t
    · obtain ⟨p, hp, rfl⟩ := h1
      obtain ⟨s, hs, ht, hg⟩ := h.origin p hp
      refine ⟨(s.name, s.fn), fun q hq hqt => ?_, fun _ _ _ => ⟨s, hs, ht, rfl, rfl⟩⟩
      rw [nodup_fst_eq h.nodup hq hp hqt]
      exact hg
    · by_cases h2 : ∃ s, P s ∧ s.typeId = t
      · obtain ⟨s, hs, ht⟩ := h2
        exact ⟨(s.name, s.fn), fun p hp hpt => absurd ⟨p, hp, hpt⟩ h1, fun _ _ _ => ⟨s, hs, ht, rfl, rfl⟩⟩
      · exact ⟨(.system 0, fun w => (w, .ok ())), fun p hp hpt => absurd ⟨p, hp, hpt⟩ h1, fun s hs ht => absurd ⟨s, hs, ht⟩ h2⟩
  refine ⟨fun t => (key t).choose.2, fun t => (key t).choose.1, ⟨h.len, fun p hp => ?_⟩, fun s hs => ?_⟩
  · exact (key p.1).choose_spec.1 p hp rfl
  · exact (key s.typeId).choose_spec.2 s hs rfl

theorem simBy_after (ops : List (RegOp W ε)) (h : ∀ w, RegOp.add w ∈ ops → Built w) :
    ∃ (fnOf : Nat → SysFn W ε) (nameOf : Nat → Label),
      SimBy (byType fnOf nameOf) fnOf nameOf (Scheduler.after ops) (Registry.after ops)
      ∧ ∀ w, RegOp.add w ∈ ops → ∀ s ∈ w.systems, ∃ v t, RegOp.add v ∈ ops ∧ t ∈ v.systems ∧ t.typeId = s.typeId
        ∧ t.fn = fnOf s.typeId ∧ t.name = nameOf s.typeId := by
  let P : WSys W ε → Prop := fun s => ∃ w, RegOp.add w ∈ ops ∧ s ∈ w.systems
  have key : ∀ (rest : List (RegOp W ε)) sch, (∀ op ∈ rest, op ∈ ops) → Keyed P sch →
      Keyed P (rest.foldl Scheduler.step sch) ∧ Extends sch (rest.foldl Scheduler.step sch) := by
    intro rest
    induction rest with
    | nil => intro sch _ hk; exact ⟨hk, .rfl _⟩
    | cons op rest ih =>
      intro sch hsub hk
      obtain ⟨h1, h2, _⟩ := hk.step op fun w hw => by
        subst hw
        have := hsub (.add w) (by simp)
        exact ⟨h w this, fun s hs => ⟨w, this, hs⟩⟩
      obtain ⟨h3, h4⟩ := ih _ (fun o ho => hsub o (List.mem_cons_of_mem _ ho)) h1
      exact ⟨h3, h2.trans h4⟩
  have start : Keyed P (Scheduler.empty : Scheduler W ε) := ⟨rfl, List.nodup_nil, fun p hp => by cases hp⟩
  obtain ⟨hfin, _⟩ := key ops Scheduler.empty (fun _ h => h) start
  obtain ⟨fnOf, nameOf, htab, horig⟩ := hfin.choose
  refine ⟨fnOf, nameOf, ?_, ?_⟩
  · have key2 : ∀ (rest : List (RegOp W ε)) sch r, (∀ op ∈ rest, op ∈ ops) → Keyed P sch →
        Extends (rest.foldl Scheduler.step sch) (ops.foldl Scheduler.step Scheduler.empty) →
        SimBy (byType fnOf nameOf) fnOf nameOf sch r →
        SimBy (byType fnOf nameOf) fnOf nameOf (rest.foldl Scheduler.step sch) (rest.foldl Registry.step r) := by
      intro rest
      induction rest with
      | nil => intro sch r _ _ _ hs; exact hs
      | cons op rest ih =>
        intro sch r hsub hk hext hs
        have hop : ∀ w, op = .add w → Built w ∧ ∀ s ∈ w.systems, P s := fun w hw => by
          subst hw
          have := hsub (.add w) (by simp)
          exact ⟨h w this, fun s hs => ⟨w, this, hs⟩⟩
        obtain ⟨h1, _, h3⟩ := hk.step op hop
        have hsub' : ∀ o ∈ rest, o ∈ ops := fun o ho => hsub o (List.mem_cons_of_mem _ ho)
        have hext' := (key rest (sch.step op) hsub' h1).2
        refine ih _ _ hsub' h1 hext (hs.step op ?_)
        rintro w rfl
        obtain ⟨hw, hP⟩ := hop w rfl
        refine ⟨hw, fun _ _ => rfl, fun hc => ?_⟩
        exact (insertSystems_keyed w.systems hk hP).1.tabled ((h3 w rfl hc).trans (hext'.trans hext)) htab
    exact key2 ops Scheduler.empty Registry.empty (fun _ h => h) start (.rfl _) (.start _ fnOf nameOf)
  · intro w hw s hs
    obtain ⟨t, ⟨v, hv, ht⟩, h1, h2, h3⟩ := horig s ⟨w, hw, hs⟩
    exact ⟨v, t, hv, ht, h1, h2, h3⟩

end Verif.Sched
