import Verif.Lemmas.Nested
import Verif.Props.TrackedRun
import Verif.Props.Build

/-!
# C92: the condition of a nested workload

`frozen c w0` always answers what `c` answers in `w0`. A workload whose condition `c` decides for all its systems at once does, from
`w0`, what it would do with `frozen c w0` instead.
-/
namespace Verif.Sched

section
variable {V ε : Type} {rs : List TypeInfo} {progOf : Nat → Prog (Nat → V) ε} {inner : Workload (Nat → V) ε}
  {F : Workload (Nat → V) ε → Workload (Nat → V) ε} {c : Cond (Nat → V) ε}

/-- C92, parallel runs: if the condition only reads, and no system and no other condition of the whole workload changes what it reads,
then it decides for all systems of the nested workload at once, with the world as it is at the start. -/
theorem C92_parallel_partial {sch : Scheduler (Nat → V) ε} {cr : Created (Nat → V) ε} {progs : List (Prog (Nat → V) ε)}
    {names : List Label} {nameOf : Nat → Label} (hF : Around rs progOf F) (hi : inner.Leaves rs progOf) (hc : ReadsOnly rs c)
    (hb : Built (F (inner.addRunIf c))) (h : createWorkload sch (F (inner.addRunIf c)) = .ok cr) (hp : cr.sch.Lists progs progOf)
    (hn : cr.sch.Lists names nameOf) {l : Label} {w0 w' : Nat → V} {res : Except (RunErr ε) Unit}
    (hr : RunWorkload cr.batches progs names l w0 w' res) :
    (F (inner.addRunIf (frozen c w0))).MayRun cr.plan progOf nameOf l w0 w' res := by
  refine mayRun_alike (around_alike hF (runIf_alike (leaves_alike hi) (frozen_alike hc w0))) ?_
  obtain ⟨_, Ls, g1, g2, g3⟩ := C59_parallel hb h hp hn
  have := g3 l w0 w' res hr
  unfold Workload.MayRun
  rcases he : evalC (F (inner.addRunIf c)).runIf w0 with ⟨w2, e | (_ | _)⟩
  · rw [he] at this; exact this
  · rw [he] at this; exact this
  · rw [he] at this; exact ⟨Ls, g1, g2, this⟩

/-- C92, runs of one system after the other, as on one thread. -/
theorem C92_sequential_partial (hF : Around rs progOf F) (hi : inner.Leaves rs progOf) (hc : ReadsOnly rs c) {ops : List (RegOp (Nat → V) ε)}
    {fnOf : Nat → SysFn (Nat → V) ε} {nameOf : Nat → Label} (ho : Fair fnOf nameOf ops) {l : Label}
    (hg : (Registry.after ops).get l = some (F (inner.addRunIf c))) (w0 : Nat → V) :
    ∃ plan, (F (inner.addRunIf c)).Alone plan ∧ Schedule (F (inner.addRunIf c)) plan
      ∧ (Scheduler.after ops).run l w0
        = .ok (runAll l (F (inner.addRunIf (frozen c w0))).runIf ((F (inner.addRunIf (frozen c w0))).inOrder plan) w0) := by
  obtain ⟨plan, h1, h2, h3⟩ := Reg.C79_alone_partial ops ho l _ hg
  refine ⟨plan, h1, h2, ?_⟩
  rw [h3, runAll_alike (around_alike hF (runIf_alike (leaves_alike hi) (frozen_alike hc w0)))]

end

/-! ## Concrete workloads -/

namespace Ex

/-- Runs only if storage 5 is 0. -/
def zero5 : Cond P Unit := fun w => (w, .ok (w 5 == 0))

theorem zero5_reads : ReadsOnly [view 5] zero5 :=
  ⟨fun _ => rfl, fun w w' h => by
    show Except.ok (w 5 == 0) = Except.ok (w' 5 == 0)
    rw [h 5 ⟨view 5, List.mem_cons_self, .inl rfl⟩]⟩

/-- 1 adds 1 to storage 5, 3 copies it to storage 6. -/
def nest : Workload P Unit := ((Workload.new (.str 2)).withSystem (psys 1 [viewMut 5])).withSystem (psys 3 [view 5, viewMut 6])

theorem nest_built : Built (nest.addRunIf zero5) :=
  .runIf _ (.withSystem (.withSystem (.new _ trivial) (psys_fresh _ _ rfl)) (psys_fresh _ _ rfl))

/-- 1 writes storage 5, 2 copies storage 6 to storage 7. -/
def nest6 : Workload P Unit := ((Workload.new (.str 2)).withSystem (psys 1 [viewMut 5])).withSystem (psys 2 [view 6, viewMut 7])

theorem even_reads : ReadsOnly [view 6] evenCond :=
  ⟨fun _ => rfl, fun w w' h => by
    show Except.ok (w 6 % 2 == 0) = Except.ok (w' 6 % 2 == 0)
    rw [h 6 ⟨view 6, List.mem_cons_self, .inl rfl⟩]⟩

theorem reads6 {x : Nat} (h : Reads [view 6] x) : x = 6 := by
  obtain ⟨b, hb, h⟩ := h
  rw [List.mem_singleton.mp hb] at h
  rcases h with h | h
  · exact h.symm
  · cases h

theorem nest6_leaves : nest6.Leaves [view 6] progOf := by
  have hmem : ∀ s ∈ nest6.systems, s = psys 1 [viewMut 5] ∨ s = { psys 2 [view 6, viewMut 7] with uid := 1 } := by
    intro s hs
    have : s ∈ [psys 1 [viewMut 5], { psys 2 [view 6, viewMut 7] with uid := 1 }] := hs
    simpa only [List.mem_cons, List.not_mem_nil, or_false] using this
  refine ⟨?_, ?_, ?_, ?_, fun _ _ _ => rfl⟩
  · intro s hs
    rcases hmem s hs with rfl | rfl <;> rfl
  · intro s hs
    rcases hmem s hs with rfl | rfl
    · exact copy_within ⟨viewMut 5, List.mem_cons_self, .inl rfl⟩ ⟨viewMut 5, List.mem_cons_self, rfl, .inl rfl⟩
    · exact copy_within ⟨view 6, List.mem_cons_self, .inl rfl⟩
        ⟨viewMut 7, List.mem_cons_of_mem _ List.mem_cons_self, rfl, .inl rfl⟩
  · rintro s hs x hx ⟨b, hb, he, h⟩
    cases reads6 hx
    rcases hmem s hs with rfl | rfl
    · rw [List.mem_singleton.mp hb] at h
      rcases h with h | h <;> cases h
    · have hb : b = view 6 ∨ b = viewMut 7 := by
        have hb : b ∈ [view 6, viewMut 7] := hb
        simpa only [List.mem_cons, List.not_mem_nil, or_false] using hb
      rcases hb with rfl | rfl
      · cases he
      · rcases h with h | h <;> cases h
  · intro s hs
    rcases hmem s hs with rfl | rfl <;> exact fun _ _ _ => rfl

/-- A system that does nothing, next to a nested workload. -/
def beside : Workload P Unit := (Workload.new (.str 1)).withSystem (psys 4 [])

theorem beside_leaves : beside.Leaves [view 6] progOf := by
  have hmem : ∀ s ∈ beside.systems, s = psys 4 [] := fun s hs => List.mem_singleton.mp hs
  refine ⟨?_, ?_, ?_, ?_, fun _ _ _ => rfl⟩
  · intro s hs; rw [hmem s hs]; rfl
  · intro s hs; rw [hmem s hs]; exact .done _
  · rintro s hs x hx ⟨b, hb, _⟩; rw [hmem s hs] at hb; cases hb
  · intro s hs; rw [hmem s hs]; exact fun _ _ _ => rfl

theorem beside_around : Around [view 6] progOf fun w => (beside.merge w).addTag (.str 3) :=
  .labels (g := fun w => w.addTag (.str 3)) (fun _ => ⟨rfl, rfl⟩) (.right beside beside_leaves .here)

/-- All hypotheses of `C92_parallel_partial` and `C92_sequential_partial` are met; there are two systems under the condition, in one group
with the third. -/
example : Built ((beside.merge (nest6.addRunIf evenCond)).addTag (.str 3)) :=
  .tag _ trivial (.merge (.withSystem (.new _ trivial) (psys_fresh _ _ rfl))
    (.runIf _ (.withSystem (.withSystem (.new _ trivial) (psys_fresh _ _ rfl)) (psys_fresh _ _ rfl))))

example : ((createWorkload Scheduler.empty ((beside.merge (nest6.addRunIf evenCond)).addTag (.str 3))).toOption.map
    fun c => (c.plan, c.sch.lookup)) = some ([(0, 0), (1, 0), (2, 0)], [(4, 0), (1, 1), (2, 2)]) := rfl

/-- Storages 0 everywhere. -/
def zeros : P := fun _ => 0

end Ex

open Ex in
/-- C92 fails when a system of the nested workload changes what the condition reads: alone, both systems run; inside another workload only the
first one does. -/
theorem C92_written_fails : ∃ (inner : Workload P Unit) (w0 w1 w2 : P), Built inner ∧ Built ((Workload.new (.str 1)).merge inner)
    ∧ (Scheduler.after [.add inner]).run inner.name w0 = .ok (w1, .ok ())
    ∧ (Scheduler.after [.add ((Workload.new (.str 1)).merge inner)]).run (.str 1) w0 = .ok (w2, .ok ())
    ∧ w1 5 = 1 ∧ w1 6 = 2 ∧ w2 5 = 1 ∧ w2 6 = 0 ∧ w0 5 = 0 ∧ w0 6 = 0 := by
  refine ⟨nest.addRunIf zero5, zeros, put 6 2 (put 5 1 zeros), put 5 1 zeros, nest_built, .merge (.new _ trivial) nest_built, rfl, rfl, rfl, rfl, rfl,
    rfl, rfl, rfl⟩


namespace Told.Ex

/-- 1 and 2, only if storage 6 was changed since the condition was last asked. -/
def nest : Workload (TW Nat) Unit := (((Workload.new (.str 2)).withSystem (tsys 1)).withSystem (tsys 2)).addRunIf changed6

def nested : Workload (TW Nat) Unit := (Workload.new (.str 1)).merge nest

theorem nest_built : Built nest :=
  .runIf _ (.withSystem (.withSystem (.new _ trivial) (tsys_fresh _ rfl)) (tsys_fresh _ rfl))

theorem nested_built : Built nested := .merge (.new _ trivial) nest_built

theorem nest_tracks : Tracks viewsOf sysOf nest := by
  have hmem : ∀ s ∈ nest.systems, s = tsys 1 ∨ s = { tsys 2 with uid := 1 } := by
    intro s hs
    have : s ∈ [tsys 1, { tsys 2 with uid := 1 }] := hs
    simpa only [List.mem_cons, List.not_mem_nil, or_false] using this
  refine ⟨?_, ?_, ?_, ?_, ?_⟩
  · intro s hs
    rcases hmem s hs with rfl | rfl <;> rfl
  · intro s hs
    rcases hmem s hs with rfl | rfl
    · exact within1
    · exact within2
  · show [1, 2].Nodup
    decide
  · intro s hs c hc
    rcases hmem s hs with rfl | rfl <;> cases hc
  · intro c hc
    cases hc; exact changed6_cond

def madeNest : Created (TW Nat) Unit := (createWorkload Scheduler.empty nest).toOption.get rfl
def madeNested : Created (TW Nat) Unit := (createWorkload Scheduler.empty nested).toOption.get rfl

example : madeNest.batches.parallel = [(none, [0, 1])] := rfl
example : madeNested.batches.parallel = [(none, [0, 1])] := rfl

def progs12 : List (Prog (TW Nat) Unit) := [(sysOf 1).prog 1, (sysOf 2).prog 2]

/-- Alone: the condition is asked once and holds; 1 and 2 take turns. -/
def tNest : Option (TW Nat × List (Task (TW Nat) Unit)) :=
  stepsOf [0, 1, 1, 0, 0, 1, 1, 0, 0, 0, 1, 1, 1]
    ((changed6 start).1, [⟨0, true, .todo ((sysOf 1).prog 1)⟩, ⟨1, false, .todo ((sysOf 2).prog 2)⟩])
def sNest : TW Nat × List (Task (TW Nat) Unit) := tNest.get rfl

/-- Nested: the condition is asked twice, and holds only the first time. -/
def tNested : Option (TW Nat × List (Task (TW Nat) Unit)) :=
  stepsOf [0, 0, 0, 0, 0, 0] ((changed6 (changed6 start).1).1, [⟨0, true, .todo ((sysOf 1).prog 1)⟩])
def sNested : TW Nat × List (Task (TW Nat) Unit) := tNested.get rfl

theorem runNest : RunWorkload madeNest.batches progs12 names nest.name start sNest.1 (.ok ()) := by
  refine .conditionTrue (c := changed6) (w1 := (changed6 start).1) rfl rfl ?_
  show RunPar _ _ _ [((none, [0, 1]), (none, [none, none]))] _ _ _
  refine .next (w' := sNest.1) (.systems (w1 := (changed6 start).1) (m := true) (flags := [true, true]) rfl rfl rfl
    (steps_of (l := [0, 1, 1, 0, 0, 1, 1, 0, 0, 0, 1, 1, 1]) (s' := sNest) rfl) ?_ (.ok ?_)) .nil
  · intro t ht
    have ht : t ∈ [⟨0, true, .ended (.ok ())⟩, ⟨1, false, .ended (.ok ())⟩] := ht
    simp only [List.mem_cons, List.not_mem_nil, or_false] at ht
    rcases ht with rfl | rfl <;> exact .inr ⟨_, rfl⟩
  · intro t ht e he
    have ht : t ∈ [⟨0, true, .ended (.ok ())⟩, ⟨1, false, .ended (.ok ())⟩] := ht
    simp only [List.mem_cons, List.not_mem_nil, or_false] at ht
    rcases ht with rfl | rfl <;> cases he

theorem runNested : RunWorkload madeNested.batches progs12 names nested.name start sNested.1 (.ok ()) := by
  refine .plain rfl ?_
  show RunPar _ _ _ [((none, [0, 1]), (none, [some 0, some 1]))] _ _ _
  refine .next (w' := sNested.1) (.systems (w1 := (changed6 (changed6 start).1).1) (m := true) (flags := [true, false]) rfl rfl rfl
    (steps_of (l := [0, 0, 0, 0, 0, 0]) (s' := sNested) rfl) ?_ (.ok ?_)) .nil
  · intro t ht
    have ht : t ∈ [⟨0, true, .ended (.ok ())⟩] := ht
    rw [List.mem_singleton.mp ht]
    exact .inr ⟨_, rfl⟩
  · intro t ht e he
    have ht : t ∈ [⟨0, true, .ended (.ok ())⟩] := ht
    rw [List.mem_singleton.mp ht] at he
    cases he

end Told.Ex

open Told Told.Ex in
/-- C92 fails for a condition that asks what was changed since it was last asked: alone, both systems run; inside another workload the question
for the first system uses up the change, and the second system does not run. -/
theorem C92_tracked_fails : ∃ (viewsOf : Who → List TypeInfo) (sysOf : Nat → Told.Sys Nat Unit) (w w1 w2 : TW Nat)
    (inner : Workload (TW Nat) Unit) (a b : Created (TW Nat) Unit) (progs : List (Prog (TW Nat) Unit)) (names : List Label),
    Hist viewsOf sysOf w ∧ Built inner ∧ Tracks viewsOf sysOf inner ∧ Built ((Workload.new (.str 1)).merge inner)
    ∧ createWorkload Scheduler.empty inner = .ok a ∧ a.sch.Lists progs (fun t => (sysOf t).prog t)
    ∧ createWorkload Scheduler.empty ((Workload.new (.str 1)).merge inner) = .ok b ∧ b.sch.Lists progs (fun t => (sysOf t).prog t)
    ∧ RunWorkload a.batches progs names inner.name w w1 (.ok ()) ∧ RunWorkload b.batches progs names (.str 1) w w2 (.ok ())
    ∧ inner.systems.map (·.typeId) = [1, 2] ∧ Ev.ended (.system 1) ∈ w1.log ∧ Ev.ended (.system 2) ∈ w1.log
    ∧ Ev.ended (.system 1) ∈ w2.log ∧ Ev.ended (.system 2) ∉ w2.log := by
  refine ⟨viewsOf, sysOf, start, sNest.1, sNested.1, nest, madeNest, madeNested, progs12, names, .outside 6 0 9 (.new _), nest_built, nest_tracks,
    nested_built, rfl, ?_, rfl, ?_, runNest, runNested, rfl, ?_, ?_, ?_, ?_⟩
  · intro p hp
    have hp : p ∈ [(1, 0), (2, 1)] := hp
    simp only [List.mem_cons, List.not_mem_nil, or_false] at hp
    rcases hp with rfl | rfl <;> rfl
  · intro p hp
    have hp : p ∈ [(1, 0), (2, 1)] := hp
    simp only [List.mem_cons, List.not_mem_nil, or_false] at hp
    rcases hp with rfl | rfl <;> rfl
  · decide
  · decide
  · decide
  · decide

end Verif.Sched
