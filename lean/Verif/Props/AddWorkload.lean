import Verif.Spec.AddWorkload
import Verif.Props.Running

/-!
# C99: workloads are found under the function that made them
-/
namespace Verif.Sched
variable {W ε : Type}

theorem given_spec {w : Workload W ε} {g : Option Label} (h : GivenName w g) :
    (∀ l, g = some l → w.overwrittenName = true ∧ w.name = l) ∧ (g = none → w.overwrittenName = false) := by
  induction h with
  | new l => exact ⟨(fun l' h => by cases h; exact ⟨rfl, rfl⟩), (fun h => by cases h)⟩
  | ofSystem t s => exact ⟨(fun l' h => by cases h), fun _ => rfl⟩
  | emptyTuple t => exact ⟨(fun l' h => by cases h), fun _ => rfl⟩
  | rename l _ _ => exact ⟨(fun l' h => by cases h; exact ⟨rfl, rfl⟩), (fun h => by cases h)⟩
  | ofFn t _ ih => exact ⟨(fun l' h => by cases h), fun _ => ih.2 rfl⟩
  | @intoSequential w w' g _ hs ih =>
    have : w'.overwrittenName = w.overwrittenName ∧ w'.name = w.name := by
      unfold Workload.intoSequential at hs
      split at hs
      · cases hs; exact ⟨rfl, rfl⟩
      · cases hs
    rw [this.1, this.2]
    exact ih
  | withSystem _ _ ih => exact ih
  | merge _ _ ih => exact ih
  | append _ _ ih => exact ih
  | withBarrier _ ih => exact ih
  | runIf _ _ ih => exact ih
  | skipIf _ _ ih => exact ih
  | beforeAll _ _ ih => exact ih
  | afterAll _ _ ih => exact ih
  | tag _ _ ih => exact ih

theorem addedAs_name {w : Workload W ε} {g : Option Label} (h : GivenName w g) (t : Nat) : (w.addedAs t).name = nameFor g t := by
  have hs := given_spec h
  unfold Workload.addedAs nameFor
  cases g with
  | none => simp [Workload.addTag, hs.2 rfl]
  | some l => simp [Workload.addTag, (hs.1 l rfl).1, (hs.1 l rfl).2]

theorem addedAs_same (w : Workload W ε) (t : Nat) : (w.addedAs t).systems = w.systems ∧ (w.addedAs t).runIf = w.runIf
    ∧ (w.addedAs t).barriers = w.barriers := by
  unfold Workload.addedAs
  dsimp only
  split <;> exact ⟨rfl, rfl, rfl⟩

theorem explicit_same {w w' : Workload W ε} (h1 : w'.systems = w.systems) (h2 : w'.barriers = w.barriers) {a b : Nat} :
    Explicit w a b → Explicit w' a b := by
  intro h
  cases h with
  | beforeAll ha hb hne hl ht => exact .beforeAll (by rw [h1]; exact ha) (by rw [h1]; exact hb) hne hl ht
  | afterAll ha hb hne hl ht => exact .afterAll (by rw [h1]; exact ha) (by rw [h1]; exact hb) hne hl ht
  | barrier hk ha hb hl => exact .barrier (by rw [h2]; exact hk) ha hb (by rw [h1]; exact hl)

theorem implicit_same {w w' : Workload W ε} (h1 : w'.systems = w.systems) {a b : Nat} (h : Implicit w a b) : Implicit w' a b := by
  unfold Implicit at *
  rw [h1]
  exact h

theorem trans_mono {α : Type} {r r' : α → α → Prop} (hrr : ∀ a b, r a b → r' a b) {a b : α} (h : Relation.TransGen r a b) :
    Relation.TransGen r' a b := by
  induction h with
  | single h => exact .single (hrr _ _ h)
  | tail _ h ih => exact .tail ih (hrr _ _ h)

theorem ordered_same {w w' : Workload W ε} (h1 : w'.systems = w.systems) (h2 : w'.barriers = w.barriers) {a b : Nat}
    (h : Ordered w a b) : Ordered w' a b := by
  refine trans_mono (fun a b hab => ?_) h
  rcases hab with hab | hab
  · exact .inl (explicit_same h1 h2 hab)
  · refine .inr ?_
    unfold Nearest at *
    rw [h1]
    exact hab

theorem buildable_same {w w' : Workload W ε} (h1 : w'.systems = w.systems) (h2 : w'.barriers = w.barriers) (h : Buildable w) :
    Buildable w' where
  present := by rw [h1]; exact h.present
  before i s hs l hl := by
    rw [h1] at hs
    obtain ⟨j, t, hj, ho, ht⟩ := h.before i s hs l hl
    exact ⟨j, t, by rw [h1]; exact hj, ordered_same h1 h2 ho, ht⟩
  after i s hs l hl := by
    rw [h1] at hs
    obtain ⟨j, t, hj, ho, ht⟩ := h.after i s hs l hl
    refine ⟨j, t, by rw [h1]; exact hj, ?_, ht⟩
    rcases ho with ho | ⟨e, k, ho⟩
    · exact .inl (ordered_same h1 h2 ho)
    · exact .inr ⟨e, k, ordered_same h1 h2 ho⟩
  acyclic := by
    rintro ⟨a, ha⟩
    refine h.acyclic ⟨a, trans_mono (fun a b hab => ?_) ha⟩
    rcases hab with hab | hab
    · exact .inl (explicit_same h1.symm h2.symm hab)
    · exact .inr (implicit_same h1.symm hab)

theorem schedule_same {w w' : Workload W ε} (h1 : w'.systems = w.systems) (h2 : w'.barriers = w.barriers) {plan : List (Nat × Nat)}
    (h : Schedule w plan) : Schedule w' plan where
  once := by rw [h1]; exact h.once
  batches := h.batches
  apart hne ha hb hx hy := h.apart hne ha hb (by rw [← h1]; exact hx) (by rw [← h1]; exact hy)
  explicit he := h.explicit (explicit_same h1.symm h2.symm he)
  implicit hi := h.implicit (implicit_same h1.symm hi)

theorem built_name {w : Workload W ε} (h : Built w) : w.name.user := by
  induction h with
  | new l hl => exact hl
  | ofSystem => trivial
  | emptyTuple => trivial
  | rename l hl _ _ => exact hl
  | ofFn => trivial
  | @intoSequential w w' _ hs ih =>
    have : w'.name = w.name := by
      unfold Workload.intoSequential at hs
      split at hs
      · cases hs; rfl
      · cases hs
    rw [this]
    exact ih
  | withSystem _ _ ih => exact ih
  | merge _ _ ih _ => exact ih
  | append _ _ ih _ => exact ih
  | withBarrier _ ih => exact ih
  | runIf _ _ ih => exact ih
  | skipIf _ _ ih => exact ih
  | beforeAll _ _ _ ih => exact ih
  | afterAll _ _ _ ih => exact ih
  | tag _ _ _ ih => exact ih

theorem built_addedAs {w : Workload W ε} (h : Built w) (t : Nat) : Built (w.addedAs t) := by
  unfold Workload.addedAs
  dsimp only
  split
  · exact .tag w.name (built_name h) (.tag (.workload t) trivial h)
  · exact .ofFn t h

/-! ## Adding and running -/

/-- C99. When the name is free and the workload can be built, `add_workload(f)` returns, and the workload runs under the name the user
gave it; when they gave none, `run_workload(f)` runs it. It runs its own systems by a schedule of it. -/
theorem C99_run_partial {fnOf : Nat → SysFn W ε} {nameOf : Nat → Label} (ops : List (RegOp W ε)) (h : Fair fnOf nameOf ops)
    {w : Workload W ε} (hw : Built w) (hf : OneFn fnOf w) (hm : OneName nameOf w) {g : Option Label} (hg : GivenName w g) (t : Nat)
    (hfree : (Registry.after ops).get (nameFor g t) = none) (hb : Buildable w) (x0 : W) :
    ∃ sch', (Scheduler.after ops).addWorkload t w = (sch', .ok ())
      ∧ (∃ plan, Schedule w plan ∧ ∀ x, sch'.run (nameFor g t) x = .ok (runAll (nameFor g t) w.runIf (w.inOrder plan) x))
      ∧ (g = none → ∃ plan, Schedule w plan ∧ ∀ x, sch'.runFn t true x = .ok (runAll (.workload t) w.runIf (w.inOrder plan) x)) := by
  obtain ⟨s1, s2, s3⟩ := addedAs_same w t
  have hw' := built_addedAs hw t
  have hb' := buildable_same s1 s3 hb
  have hname := addedAs_name hg t
  have hall : AllBuilt ops := fun v hv => (h v hv).1
  obtain ⟨r1, r2, _⟩ := C61_add_result ops hall (w.addedAs t) hw' (by rw [hname]; exact hfree)
  have hok := r1.2 hb'
  have hfair : Fair fnOf nameOf (ops ++ [.add (w.addedAs t)]) := by
    intro v hv
    rcases List.mem_append.1 hv with hv | hv
    · exact h v hv
    · rw [List.mem_singleton] at hv
      cases hv
      exact ⟨hw', by unfold OneFn at *; rw [s1]; exact hf, by unfold OneName at *; rw [s1]; exact hm⟩
  have hrun : ∃ plan, Schedule w plan ∧ ∀ x, ((Scheduler.after ops).add (w.addedAs t)).1.run (nameFor g t) x
      = .ok (runAll (nameFor g t) w.runIf (w.inOrder plan) x) := by
    have hsame : (Scheduler.after (ops ++ [.add (w.addedAs t)])) = ((Scheduler.after ops).add (w.addedAs t)).1 := by
      simp [Scheduler.after, Scheduler.step]
    have hget : (Registry.after (ops ++ [.add (w.addedAs t)])).get (nameFor g t) = some (w.addedAs t) := by
      simp only [Registry.after, List.foldl_append, List.foldl_cons, List.foldl_nil]
      unfold Registry.step
      dsimp only
      rw [if_pos ⟨by rw [hname]; exact hfree, hb'⟩]
      dsimp only
      rw [if_pos hname.symm]
    rw [← hsame]
    have := C61_run_own (ops ++ [.add (w.addedAs t)]) hfair (nameFor g t) x0
    rw [hget] at this
    obtain ⟨_, _, plan, hp, hrun⟩ := this
    refine ⟨plan, schedule_same s1.symm s3.symm hp, fun x => ?_⟩
    rw [hrun, s2]
    simp only [Workload.inOrder, Workload.namedJob, Workload.at, s1]
  refine ⟨((Scheduler.after ops).add (w.addedAs t)).1, ?_, hrun, ?_⟩
  · unfold Scheduler.addWorkload
    rcases hadd : (Scheduler.after ops).add (w.addedAs t) with ⟨a, b⟩
    rw [hadd] at hok
    cases hok
    rfl
  · intro e
    subst e
    exact hrun

/-- C99. `add_workload` panics exactly when the name is used or the workload cannot be built; with a used name nothing changes. -/
theorem C99_panic_partial (ops : List (RegOp W ε)) (h : AllBuilt ops) {w : Workload W ε} (hw : Built w) {g : Option Label}
    (hg : GivenName w g) (t : Nat) :
    (((Scheduler.after ops).addWorkload t w).2 = .error .panic ↔
      ((Registry.after ops).get (nameFor g t) ≠ none ∨ ¬ Buildable w))
    ∧ ((Registry.after ops).get (nameFor g t) ≠ none → ((Scheduler.after ops).addWorkload t w).1 = Scheduler.after ops)
    ∧ ∀ l, l ≠ nameFor g t → (Registry.after (ops ++ [.add (w.addedAs t)])).get l = (Registry.after ops).get l := by
  obtain ⟨s1, s2, s3⟩ := addedAs_same w t
  have hname := addedAs_name hg t
  have hbb : Buildable (w.addedAs t) ↔ Buildable w := ⟨buildable_same s1.symm s3.symm, buildable_same s1 s3⟩
  by_cases hn : (Registry.after ops).get (nameFor g t) = none
  · obtain ⟨r1, _, r3⟩ := C61_add_result ops h (w.addedAs t) (built_addedAs hw t) (by rw [hname]; exact hn)
    refine ⟨?_, fun hne => absurd hn hne, fun l hl => r3 l (by rw [hname]; exact hl)⟩
    rw [hbb] at r1
    have : ((Scheduler.after ops).addWorkload t w).2 = .error .panic ↔ ((Scheduler.after ops).add (w.addedAs t)).2 ≠ .ok () := by
      unfold Scheduler.addWorkload
      rcases hadd : (Scheduler.after ops).add (w.addedAs t) with ⟨a, b⟩
      cases b with
      | ok u => simp
      | error e => simp
    rw [this, Ne, r1]
    exact ⟨.inr, fun h => h.resolve_left fun hne => hne hn⟩
  · have hu := C61_add_used ops h (w.addedAs t) (by rw [hname]; exact hn)
    refine ⟨?_, fun _ => ?_, fun l hl => ?_⟩
    · unfold Scheduler.addWorkload
      rw [hu]
      exact ⟨fun _ => .inl hn, fun _ => rfl⟩
    · unfold Scheduler.addWorkload
      rw [hu]
    · simp only [Registry.after, List.foldl_append, List.foldl_cons, List.foldl_nil]
      unfold Registry.step
      dsimp only
      rw [if_neg]
      rintro ⟨h1, _⟩
      rw [hname] at h1
      exact hn h1

/-- A world with a workload named by the user; `add_workload` of a function (type 7) that returns a tuple of two functions made into a
workload. -/
def twoSystems : Workload Nat Unit :=
  (Workload.ofTuple 90 [Workload.ofSystem 1 (Ex.sys 1 [Ex.viewMut 5]), Workload.ofSystem 2 (Ex.sys 2 [Ex.viewMut 5])])

def otherName : List (RegOp Nat Unit) := [.add ((Workload.new (.str 1)).withSystem (Ex.sys 3 []))]

theorem twoSystems_built : Built twoSystems :=
  .merge (.merge (.emptyTuple 90) (.ofSystem 1 (Ex.sys_fresh 1 _ rfl))) (.ofSystem 2 (Ex.sys_fresh 2 _ rfl))
theorem otherName_built : AllBuilt otherName := fun w hw => by
  rw [otherName, List.mem_singleton] at hw
  cases hw
  exact .withSystem (.new _ trivial) (Ex.sys_fresh 3 _ rfl)
theorem otherName_free : (Registry.after otherName).get (.workload 7) = none := by
  have := C61_contains otherName otherName_built (.workload 7)
  by_cases h : (Registry.after otherName).get (.workload 7) = none
  · exact h
  · exact absurd (this.2 h) (by decide)

/-- All the hypotheses of `C99_run_partial` hold, and the workload runs. -/
example : GivenName twoSystems none ∧ Buildable twoSystems ∧ OneFn (fun t w => (w + t, .ok ())) twoSystems
    ∧ OneName .system twoSystems ∧ (Registry.after otherName).get (nameFor none 7) = none
    ∧ (((Scheduler.after otherName).addWorkload 7 twoSystems).1.runFn 7 true 0).toOption.map (·.1) = some 3 := by
  refine ⟨.merge _ (.merge _ (.emptyTuple 90)), ?_, ?_, ?_, otherName_free, rfl⟩
  · have h := (C61_add_result otherName otherName_built (twoSystems.addedAs 7) (built_addedAs twoSystems_built 7) otherName_free).1.1 rfl
    exact buildable_same (addedAs_same twoSystems 7).1.symm (addedAs_same twoSystems 7).2.2.symm h
  · intro s hs
    rcases List.mem_cons.1 hs with rfl | hs
    · rfl
    · rcases List.mem_cons.1 hs with rfl | hs
      · rfl
      · cases hs
  · intro s hs
    rcases List.mem_cons.1 hs with rfl | hs
    · rfl
    · rcases List.mem_cons.1 hs with rfl | hs
      · rfl
      · cases hs

/-- Claim: `run_workload(f)` runs the workload that `add_workload(f)` added. Not when the workload has a name of its own: it is only
known by that name. -/
theorem C99_named_fails : ∃ (w : Workload Nat Unit) (sch : Scheduler Nat Unit), GivenName w (some (.str 1))
    ∧ Scheduler.empty.addWorkload 7 w = (sch, .ok ()) ∧ ∀ x, sch.runFn 7 true x = .ok (x, .error .missing) :=
  ⟨_, _, .rename (.str 1) (.emptyTuple 90), rfl, fun _ => rfl⟩

/-- Claim: it is then known by the name the user gave it. Not when the function (type 7) returns the workload of another function (type
8), `g.into_workload()`, which has the name: it is known as `g`, neither by its name nor as `f`. -/
theorem C99_nested_fails : ∃ (w : Workload Nat Unit) (sch : Scheduler Nat Unit), GivenName w (some (.str 1))
    ∧ Scheduler.empty.addWorkload 7 (Workload.ofFn 8 w) = (sch, .ok ()) ∧ (∀ x, sch.runFn 7 true x = .ok (x, .error .missing))
    ∧ (∀ x, sch.run (.str 1) x = .ok (x, .error .missing)) ∧ sch.contains (fnLabel 8 true) = true :=
  ⟨_, _, .new (.str 1), rfl, fun _ => rfl, fun _ => rfl, rfl⟩

/-- Claim: `run_workload(f)` runs what `add_workload(f)` added when it has no name. Not when `f` returns something else than a
`Workload`, for example a tuple of systems, which `add_workload` accepts: `run_workload` takes `f` for a system. -/
theorem C99_tuple_fails : ∃ (w : Workload Nat Unit) (sch : Scheduler Nat Unit), GivenName w none
    ∧ Scheduler.empty.addWorkload 7 w = (sch, .ok ()) ∧ (∀ x, sch.runFn 7 false x = .ok (x, .error .missing))
    ∧ sch.contains (.workload 7) = true :=
  ⟨twoSystems, _, .merge _ (.merge _ (.emptyTuple 90)), rfl, fun _ => rfl, rfl⟩

end Verif.Sched
