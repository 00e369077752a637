import Verif.Lemmas.Register
import Verif.Lemmas.GetComponent
import Verif.Props.Running
import Verif.Props.WorkloadInfo

/-!
# C77: adding a workload enables the tracking of its views, for good

`Later` (in `Spec/Register.lean`) is any sequence of calls of the API on the world, `Grants` says that a view with a
tracking type can be borrowed.
-/
namespace Verif.Reg
open Sched Track Tracking

variable {V W η ε : Type} {fl : Flags}

/-- The cases of `add_to_world`. -/
theorem addToWorld_ok {held : Held} {w w' : World V} {sch sch' : Scheduler W η} {wl : Workload W η}
    (h : addToWorld fl held w sch wl = (w', sch', .ok ())) :
    held.scheduler = false ∧ held.all = false ∧ ∃ c, createWorkload sch wl = .ok c ∧
      enableAll fl held.sto (trackingOf wl) w = (w', .ok ()) ∧ sch' = c.sch.insertInfo wl.name c.info := by
  unfold addToWorld at h
  split at h
  · cases h
  · rename_i hs
    refine ⟨by simpa using hs, ?_⟩
    split at h
    · cases h
    · rename_i c hc
      split at h
      · cases h
      · rename_i ha
        refine ⟨by simpa using ha, c, hc, ?_⟩
        split at h
        · cases h
        · rename_i w1 u he
          cases h
          exact ⟨he, rfl⟩

/-- C77. When a workload was added, every view of every one of its systems can be borrowed with its tracking type, then and
in every later world: no call turns tracking off, whatever it is called with, also when it fails or panics. -/
theorem C77_enabled {held : Held} {w w' : World V} {sch sch' : Scheduler W η} {wl : Workload W η}
    (h : addToWorld fl held w sch wl = (w', sch', .ok ())) {s : WSys W η} (hs : s ∈ wl.systems) {k : Nat} {kind : Kind}
    (ht : (k, kind) ∈ s.tracking) :
    (lookupK w'.stos k).isSome = true ∧ ∀ w'', Later fl w' w'' → Grants fl w'' k kind := by
  obtain ⟨_, _, c, _, he, _⟩ := addToWorld_ok h
  have hm : (k, kind) ∈ trackingOf wl := List.mem_flatMap.mpr ⟨s, hs, ht⟩
  obtain ⟨h1, h2⟩ := enableAll_ok _ _ _ _ he _ hm
  exact ⟨h2, fun w'' hl => (later_keeps hl).grants h1⟩

/-- C77. A system made of a function with the views `ps` wants exactly the tracking of its component views. -/
theorem C77_collected {t : Nat} {ps : List Param} {lastRun : Option Nat}
    {body : List (View V) → World V → World V × Except ε Unit} {s : WSys (World V) (ViewErr ε)}
    (h : ofParams fl t ps lastRun body = .ok s) :
    s.fn = sysFn fl lastRun ps body ∧ s.borrows = ps.map Param.info ∧
    ∀ k kind, (k, kind) ∈ s.tracking ↔ ∃ x ts, Param.comp k x ts kind ∈ ps := by
  unfold ofParams WSys.ofFn at h
  split at h
  · cases h
  · cases h
    refine ⟨rfl, rfl, fun k kind => ?_⟩
    simp only [List.mem_filterMap]
    constructor
    · rintro ⟨p, hp, he⟩
      cases p with
      | comp k' x t kind' => cases he; exact ⟨x, t, hp⟩
      | other t => cases he
    · rintro ⟨x, ts, hp⟩
      exact ⟨_, hp, rfl⟩

/-- C77. When nothing is borrowed meanwhile, adding gives what the scheduler alone gives: tracking never makes it fail. -/
theorem C77_result (held : Held) (w : World V) (sch : Scheduler W η) (wl : Workload W η) (hs : held.scheduler = false)
    (ha : held.all = false) (hk : ∀ k, (∃ kind, (k, kind) ∈ trackingOf wl) → held.sto k = false) :
    (addToWorld fl held w sch wl).2.1 = (sch.add wl).1 ∧
    (addToWorld fl held w sch wl).2.2 = (match (sch.add wl).2 with | .ok _ => .ok () | .error f => .error (.sched f)) := by
  unfold addToWorld Scheduler.add
  rw [if_neg (by rw [hs]; decide)]
  cases hc : createWorkload sch wl with
  | error f =>
    dsimp only
    cases f with
    | fault g => exact ⟨rfl, rfl⟩
    | err e => cases e <;> exact ⟨rfl, rfl⟩
  | ok c =>
    dsimp only
    rw [if_neg (by rw [ha]; decide)]
    cases he : enableAll fl held.sto (trackingOf wl) w with
    | mk w1 r =>
      cases r with
      | ok u => exact ⟨rfl, rfl⟩
      | error k =>
        obtain ⟨h1, h2⟩ := enableAll_error held.sto (trackingOf wl) w k (by rw [he])
        rw [hk k h2] at h1
        cases h1

/-- C77. The errors of `add_to_world`: what is borrowed is what the error says, and a world whose scheduler or `AllStorages` is
borrowed, or whose workload is refused, is not touched. -/
theorem C77_errors (held : Held) (w w' : World V) (sch sch' : Scheduler W η) (wl : Workload W η) (e : RegErr)
    (h : addToWorld fl held w sch wl = (w', sch', .error e)) :
    match e with
    | .borrow => held.scheduler = true ∧ w' = w ∧ sch' = sch
    | .sched f => (sch.add wl).2 = .error f ∧ w' = w ∧ sch' = (sch.add wl).1
    | .trackAll => held.all = true ∧ w' = w
    | .trackSto k => held.sto k = true ∧ ∃ s ∈ wl.systems, ∃ kind, (k, kind) ∈ s.tracking := by
  unfold addToWorld at h
  split at h
  · rename_i hs; cases h; exact ⟨hs, rfl, rfl⟩
  · split at h
    · rename_i f hc
      cases h
      refine ⟨?_, rfl, rfl⟩
      unfold Scheduler.add
      rw [hc]
      cases f with
      | fault g => rfl
      | err e => cases e <;> rfl
    · split at h
      · rename_i ha; cases h; exact ⟨ha, rfl⟩
      · split at h
        · rename_i w1 k he
          cases h
          obtain ⟨h1, kind, h2⟩ := enableAll_error held.sto (trackingOf wl) w k (by rw [he])
          obtain ⟨s, hs, ht⟩ := List.mem_flatMap.mp h2
          exact ⟨h1, s, hs, kind, ht⟩
        · cases h

theorem addToWorld_world (held : Held) (w : World V) (sch : Scheduler W η) (wl : Workload W η) :
    (addToWorld fl held w sch wl).1 = w ∨
    (addToWorld fl held w sch wl).1 = (enableAll fl held.sto (trackingOf wl) w).1 := by
  unfold addToWorld
  split
  · exact .inl rfl
  · split
    · exact .inl rfl
    · split
      · exact .inl rfl
      · split
        · rename_i he; right; rw [he]
        · rename_i he; right; rw [he]

/-- C77. Whatever the result, entities, components, logs, callbacks and timestamps are what they were; a storage tracks what
it tracked and at most what the systems ask for; storages are made only for the views of the systems. -/
theorem C77_kept (held : Held) (w w' : World V) (sch sch' : Scheduler W η) (wl : Workload W η) (r : Except RegErr Unit)
    (h : addToWorld fl held w sch wl = (w', sch', r)) :
    w'.ents = w.ents ∧ w'.counter = w.counter ∧ (∀ k e, w'.get k e = w.get k e) ∧
    (∀ k, Same (w.stoOr fl k) (w'.stoOr fl k)) ∧
    (∀ k, (∀ s ∈ wl.systems, ∀ kind, (k, kind) ∉ s.tracking) → lookupK w'.stos k = lookupK w.stos k) ∧
    (∀ k, (w.stoOr fl k).trkIns = true → (w'.stoOr fl k).trkIns = true) ∧
    (∀ k, (w.stoOr fl k).trkMod = true → (w'.stoOr fl k).trkMod = true) ∧
    (∀ k, (w.stoOr fl k).trkDel = true → (w'.stoOr fl k).trkDel = true) ∧
    (∀ k, (w.stoOr fl k).trkRem = true → (w'.stoOr fl k).trkRem = true) ∧
    (∀ k, (w'.stoOr fl k).trkIns = true → (w.stoOr fl k).trkIns = true ∨ ∃ s ∈ wl.systems, ∃ kind, (k, kind) ∈ s.tracking ∧ kind.trackInsertion = true) ∧
    (∀ k, (w'.stoOr fl k).trkMod = true → (w.stoOr fl k).trkMod = true ∨ ∃ s ∈ wl.systems, ∃ kind, (k, kind) ∈ s.tracking ∧ kind.trackModification = true) ∧
    (∀ k, (w'.stoOr fl k).trkDel = true → (w.stoOr fl k).trkDel = true ∨ ∃ s ∈ wl.systems, ∃ kind, (k, kind) ∈ s.tracking ∧ kind.trackDeletion = true) ∧
    (∀ k, (w'.stoOr fl k).trkRem = true → (w.stoOr fl k).trkRem = true ∨ ∃ s ∈ wl.systems, ∃ kind, (k, kind) ∈ s.tracking ∧ kind.trackRemoval = true) := by
  have hw := addToWorld_world (fl := fl) held w sch wl
  rw [h] at hw
  rcases hw with hw | hw
  · dsimp only at hw; subst hw
    exact ⟨rfl, rfl, fun _ _ => rfl, fun _ => .refl _, fun _ _ => rfl, fun _ => id, fun _ => id, fun _ => id, fun _ => id,
      fun _ => .inl, fun _ => .inl, fun _ => .inl, fun _ => .inl⟩
  · dsimp only at hw
    obtain ⟨a, b, c, d, e⟩ := enableAll_same (fl := fl) held.sto (trackingOf wl) w _ _ rfl
    have hk := enableAll_keeps (fl := fl) held.sto (trackingOf wl) w
    have ho := enableAll_only (fl := fl) held.sto (trackingOf wl) w _ _ rfl
    rw [← hw] at a b c d e hk ho
    have src : ∀ {k kind}, (k, kind) ∈ trackingOf wl → ∃ s ∈ wl.systems, (k, kind) ∈ s.tracking := fun hm =>
      List.mem_flatMap.mp hm
    refine ⟨a, b, fun k en => ?_, c, fun k hn => ?_, fun k => (hk k).1, fun k => (hk k).2.1, fun k => (hk k).2.2.1,
      fun k => (hk k).2.2.2, fun k hx => ?_, fun k hx => ?_, fun k hx => ?_, fun k hx => ?_⟩
    · have hs := c k
      have gs : (w'.stoOr fl k).get en = (w.stoOr fl k).get en := by
        unfold SparseSet.get SparseSet.indexOf
        rw [hs.sparse, hs.data]
      have key : ∀ (x : World V), x.get k en = (x.stoOr fl k).get en := by
        intro x
        unfold World.get World.stoOr
        cases lookupK x.stos k with
        | some s => rfl
        | none => exact (GetComp.newSto_get k en).symm
      rw [key, key, gs]
    · exact e k fun kind hm => by obtain ⟨s, hs, ht⟩ := src hm; exact hn s hs kind ht
    · rcases (ho k).1 hx with h | ⟨kd, hm, hp⟩
      · exact .inl h
      · obtain ⟨s, hs, ht⟩ := src hm; exact .inr ⟨s, hs, kd, ht, hp⟩
    · rcases (ho k).2.1 hx with h | ⟨kd, hm, hp⟩
      · exact .inl h
      · obtain ⟨s, hs, ht⟩ := src hm; exact .inr ⟨s, hs, kd, ht, hp⟩
    · rcases (ho k).2.2.1 hx with h | ⟨kd, hm, hp⟩
      · exact .inl h
      · obtain ⟨s, hs, ht⟩ := src hm; exact .inr ⟨s, hs, kd, ht, hp⟩
    · rcases (ho k).2.2.2 hx with h | ⟨kd, hm, hp⟩
      · exact .inl h
      · obtain ⟨s, hs, ht⟩ := src hm; exact .inr ⟨s, hs, kd, ht, hp⟩

/-- C77. All the other properties of worlds hold after a workload was added, or failed to be: the world is still one reached
by calls of the API, with the same history of entities. -/
theorem C77_reach (held : Held) (w : World V) (sch : Scheduler W η) (wl : Workload W η) {h : List EntSpec.Event}
    (hr : WSpec.Reach fl w h) : WSpec.Reach fl (addToWorld fl held w sch wl).1 h := by
  rcases addToWorld_world (fl := fl) held w sch wl with e | e
  · rw [e]; exact hr
  · rw [e]; exact enableAll_reach held.sto _ w hr

/-- A system whose views are granted runs its function. -/
theorem sysFn_runs {lastRun : Option Nat} {ps : List Param} {body : List (View V) → World V → World V × Except ε Unit}
    {w : World V} (hg : ∀ p ∈ ps.filterMap Param.enable, Grants fl w p.1 p.2) :
    ∃ w1 vs, Later fl w w1 ∧ (sysFn fl lastRun ps body w).1 = (body vs w1).1 ∧
      (sysFn fl lastRun ps body w).2 = (match (body vs w1).2 with | .ok _ => .ok () | .error e => .error (.user e)) := by
  have hc : Call fl w w.tick := .clock _
  obtain ⟨w1, vs, h1, h2, _⟩ := borrowAll_ok (ε := ε) (fl := fl) lastRun w.counter ps w.tick
    fun p hp => (call_keeps hc).grants (hg p hp)
  refine ⟨w1, vs, Later.trans (.call .refl hc) h2, ?_, ?_⟩
  · unfold sysFn
    rw [h1]
    dsimp only
    cases hb : body vs w1 with
    | mk w2 r => cases r <;> rfl
  · unfold sysFn
    rw [h1]
    dsimp only
    cases hb : body vs w1 with
    | mk w2 r => cases r <;> rfl

/-- One job of a tame workload whose tracking is enabled: no error about tracking, and the calls it makes. -/
theorem runJob_tame {wl : Workload (World V) (ViewErr ε)} (ht : Tame fl wl) {s : WSys (World V) (ViewErr ε)}
    (hs : s ∈ wl.systems) {w : World V} (hg : ∀ p ∈ s.tracking, Grants fl w p.1 p.2) :
    Later fl w (runJob ((s.name, s.fn), s.runIf) w).1 ∧
    ∀ n k, (runJob ((s.name, s.fn), s.runIf) w).2 ≠ .error (.run n (.trackingNotEnabled k)) := by
  obtain ⟨ps, lastRun, body, hf, htr, hb⟩ := ht.systems s hs
  have hc : Later fl w (evalC s.runIf w).1 ∧ ∀ k, (evalC s.runIf w).2 ≠ .error (.trackingNotEnabled k) := by
    cases hr : s.runIf with
    | none => exact ⟨.refl, fun k h => by cases h⟩
    | some c => exact ht.conditions c (.inr ⟨s, hs, hr⟩) w
  unfold runJob
  dsimp only
  cases hev : evalC s.runIf w with
  | mk w1 r =>
    rw [hev] at hc
    obtain ⟨hl, hne⟩ := hc
    rcases r with e | b
    · exact ⟨hl, fun n k h => by cases h; exact hne k rfl⟩
    · cases b with
      | false => exact ⟨hl, fun n k h => by cases h⟩
      | true =>
        dsimp only
        obtain ⟨w2, vs, h1, h2, h3⟩ := sysFn_runs (fl := fl) (lastRun := lastRun) (ps := ps) (body := body) (w := w1)
          fun p hp => (later_keeps hl).grants (hg p (by rw [htr]; exact hp))
        rw [hf]
        cases hx : sysFn fl lastRun ps body w1 with
        | mk w3 r3 =>
          rw [hx] at h2 h3
          dsimp only at h2 h3
          have hl3 : Later fl w w3 := by rw [h2]; exact hl.trans (h1.trans (hb vs w2))
          cases hr3 : (body vs w2).2 with
          | ok u => rw [hr3] at h3; dsimp only at h3; subst h3; exact ⟨hl3, fun n k h => by cases h⟩
          | error e => rw [hr3] at h3; dsimp only at h3; subst h3; exact ⟨hl3, fun n k h => by cases h⟩

theorem runJobs_tame {wl : Workload (World V) (ViewErr ε)} (ht : Tame fl wl) (jobs : List (NamedJob (World V) (ViewErr ε))) :
    ∀ (w : World V), (∀ j ∈ jobs, ∃ s ∈ wl.systems, j = ((s.name, s.fn), s.runIf)) →
    (∀ s ∈ wl.systems, ∀ p ∈ s.tracking, Grants fl w p.1 p.2) →
    Later fl w (runJobs jobs w).1 ∧ ∀ n k, (runJobs jobs w).2 ≠ .error (.run n (.trackingNotEnabled k)) := by
  induction jobs with
  | nil => intro w _ _; exact ⟨.refl, fun n k h => by cases h⟩
  | cons j rest ih =>
    intro w hj hg
    obtain ⟨s, hs, he⟩ := hj j (by simp)
    have h1 := runJob_tame ht hs (w := w) fun p hp => hg s hs p hp
    rw [← he] at h1
    unfold runJobs
    cases hr : runJob j w with
    | mk w1 r =>
      rw [hr] at h1
      obtain ⟨hl, hne⟩ := h1
      cases r with
      | error e => exact ⟨hl, hne⟩
      | ok u =>
        dsimp only
        obtain ⟨h2, h3⟩ := ih w1 (fun j hj' => hj j (by simp [hj'])) fun s hs p hp => (later_keeps hl).grants (hg s hs p hp)
        exact ⟨hl.trans h2, h3⟩

theorem runAll_tame {wl : Workload (World V) (ViewErr ε)} (ht : Tame fl wl) (l : Label) (plan : List (Nat × Nat)) (w : World V)
    (hg : ∀ s ∈ wl.systems, ∀ p ∈ s.tracking, Grants fl w p.1 p.2) :
    Later fl w (runAll l wl.runIf (wl.inOrder plan) w).1 ∧
    ∀ n k, (runAll l wl.runIf (wl.inOrder plan) w).2 ≠ .error (.run n (.trackingNotEnabled k)) := by
  have hc : Later fl w (evalC wl.runIf w).1 ∧ ∀ k, (evalC wl.runIf w).2 ≠ .error (.trackingNotEnabled k) := by
    cases hr : wl.runIf with
    | none => exact ⟨.refl, fun k h => by cases h⟩
    | some c => exact ht.conditions c (.inl hr) w
  unfold runAll
  cases hev : evalC wl.runIf w with
  | mk w1 r =>
    rw [hev] at hc
    obtain ⟨hl, hne⟩ := hc
    rcases r with e | b
    · exact ⟨hl, fun n k h => by cases h; exact hne k rfl⟩
    · cases b with
      | false => exact ⟨hl, fun n k h => by cases h⟩
      | true =>
        dsimp only
        have hj : ∀ j ∈ wl.inOrder plan, ∃ s ∈ wl.systems, j = ((s.name, s.fn), s.runIf) := by
          intro j hj
          unfold Workload.inOrder Workload.namedJob Workload.at at hj
          rw [List.mem_filterMap] at hj
          obtain ⟨p, _, hp⟩ := hj
          rw [Option.map_eq_some_iff] at hp
          obtain ⟨s, hs, he⟩ := hp
          exact ⟨s, List.mem_of_getElem? hs, he.symm⟩
        obtain ⟨h1, h2⟩ := runJobs_tame ht _ w1 hj fun s hs p hp => (later_keeps hl).grants (hg s hs p hp)
        exact ⟨hl.trans h1, h2⟩

/-- C77. The whole story: a workload is added to a world whose workloads are the result of `ops`; later, after any calls on the
world and any other workloads, renamings and changes of default, it is run under its name of that time. No system fails
because tracking is not enabled, however often it is run (a run is itself made of calls). -/
theorem C77_run_partial {fnOf : Nat → SysFn (World V) (ViewErr ε)} {nameOf : Nat → Label} (ops more : List (RegOp (World V) (ViewErr ε)))
    (wl : Workload (World V) (ViewErr ε)) (hf : Fair fnOf nameOf (ops ++ .add wl :: more)) (ht : Tame fl wl)
    {held : Held} {w w' : World V} {sch' : Scheduler (World V) (ViewErr ε)}
    (h : addToWorld fl held w (Scheduler.after ops) wl = (w', sch', .ok ())) (l : Label)
    (hg : (Registry.after (ops ++ .add wl :: more)).get l = some wl) (x : World V) (hx : Later fl w' x) :
    sch' = Scheduler.after (ops ++ [.add wl]) ∧
    ∃ x' r, (Scheduler.after (ops ++ .add wl :: more)).run l x = .ok (x', r) ∧ Later fl w' x' ∧
      ∀ n k, r ≠ .error (.run n (.trackingNotEnabled k)) := by
  obtain ⟨_, _, c, hc, _, hs⟩ := addToWorld_ok h
  refine ⟨?_, ?_⟩
  · unfold Scheduler.after
    rw [List.foldl_append]
    show sch' = ((Scheduler.after ops).add wl).1
    unfold Scheduler.add
    rw [hc]
    exact hs
  · have hr := C61_run_own _ hf l x
    rw [hg] at hr
    obtain ⟨_, _, plan, _, hrun⟩ := hr
    obtain ⟨h1, h2⟩ := runAll_tame ht l plan x fun s hs' p hp => (C77_enabled h hs' hp).2 x hx
    exact ⟨_, _, hrun x, hx.trans h1, h2⟩

end Verif.Reg
