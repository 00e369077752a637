import Verif.Lemmas.TrackedRun
import Verif.Props.Scheduler

/-!
# C83: systems running in parallel are told every change exactly once

`Hist` is any history of a world: changes made outside of workloads and runs of workloads, with every interleaving of the steps of the
systems that run at the same time. Its log is what happened. The property is about the log only.
-/
namespace Verif.Sched.Told

variable {V ε : Type}

section
variable {viewsOf : Who → List TypeInfo} {sysOf : Nat → Sys V ε} {w : TW V}

/-- C83: a system or condition that asks whether a component was changed is told yes if and only if the component was changed after the
end of its own last run (or at all, if it never ran). -/
theorem C83_exact (h : Hist viewsOf sysOf w) : Exact w.log := (hist_rest h).exact

/-- C83: no change is missed: a change that no end of a run of `i` follows is told to `i`. -/
theorem C83_never_missed (h : Hist viewsOf sysOf w) {newer between older : List Ev} {i : Who} {x k : Nat} {b : Bool}
    (hl : w.log = newer ++ .told i x k b :: (between ++ .wrote x k :: older)) (hb : Ev.ended i ∉ between) : b = true :=
  (C83_exact h newer i x k b _ hl).mpr ⟨between, older, rfl, hb⟩

/-- C83: no change is told again: if nothing changed the component since the last run of `i` ended, `i` is told no. -/
theorem C83_never_twice (h : Hist viewsOf sysOf w) {newer between older : List Ev} {i : Who} {x k : Nat} {b : Bool}
    (hl : w.log = newer ++ .told i x k b :: (between ++ .ended i :: older)) (hb : Ev.wrote x k ∉ between) : b = false := by
  cases hb' : b with
  | false => rfl
  | true =>
    obtain ⟨n, o, e, hn⟩ := (C83_exact h newer i x k b _ hl).mp hb'
    exfalso
    clear hl
    induction between generalizing n with
    | nil =>
      cases n with
      | nil => cases e
      | cons a n => injection e with e1 _; exact hn (e1 ▸ List.mem_cons_self)
    | cons a m ih =>
      cases n with
      | nil => injection e with e1 _; exact hb (e1 ▸ List.mem_cons_self)
      | cons c n =>
        injection e with _ e
        exact ih (fun h => hb (List.mem_cons_of_mem _ h)) n e fun h => hn (List.mem_cons_of_mem _ h)

end

/-! ## Concrete histories -/

namespace Ex
open Verif.Sched.Ex (view viewMut)

/-- A step of task `n`, whichever it is. -/
def stepOf (n : Nat) (s : TW V × List (Task (TW V) ε)) : Option (TW V × List (Task (TW V) ε)) :=
  match s.2[n]? with
  | none => none
  | some t =>
    match t.status with
    | .todo p => some (s.1, s.2.set n { t with status := .going p })
    | .going (.act u k) => some (u s.1, s.2.set n { t with status := .going (k s.1) })
    | .going (.done r) => some (s.1, s.2.set n { t with status := .ended r })
    | _ => none

def stepsOf : List Nat → TW V × List (Task (TW V) ε) → Option (TW V × List (Task (TW V) ε))
  | [], s => some s
  | n :: l, s =>
    match stepOf n s with
    | none => none
    | some s => stepsOf l s

theorem stepOf_ok {n : Nat} {s s' : TW V × List (Task (TW V) ε)} (h : stepOf n s = some s') : Step s.1 s.2 s'.1 s'.2 := by
  unfold stepOf at h
  split at h
  · cases h
  · rename_i t ht
    split at h
    · rename_i p hp; cases h; exact .start n p ht hp
    · rename_i u k hp; cases h; exact .act n u k ht hp
    · rename_i r hp; cases h; exact .finish n r ht hp
    · cases h

theorem stepsOf_ok : ∀ (l : List Nat) {s0 s s' : TW V × List (Task (TW V) ε)}, Steps s0.1 s0.2 s.1 s.2 → stepsOf l s = some s' →
    Steps s0.1 s0.2 s'.1 s'.2
  | [], _, _, _, h0, h => by cases h; exact h0
  | n :: l, _, s, _, h0, h => by
    unfold stepsOf at h
    split at h
    · cases h
    · rename_i s1 hs; exact stepsOf_ok l (h0.tail (stepOf_ok hs)) h

/-- 1 writes storage 5. 2 asks about storage 6 and writes storage 7 if it was changed. 3 asks about storage 5 and about storage 7. 4 asks about
storage 6. -/
def viewsOf : Who → List TypeInfo
  | .system 1 => [viewMut 5]
  | .system 2 => [view 6, viewMut 7]
  | .system 3 => [view 5, view 7]
  | .system 4 => [view 6]
  | .condition 1 => [view 6]
  | .condition 2 => [viewMut 7, view 8]
  | .condition 3 => [view 5]
  | _ => []

def sysOf : Nat → Sys Nat Unit
  | 1 => .tracked (.write 5 0 1 (.done (.ok ())))
  | 2 => .tracked (.look 6 0 fun v b => if b then .write 7 0 v (.done (.ok ())) else .done (.ok ()))
  | 3 => .tracked (.look 5 0 fun _ _ => .look 7 0 fun _ _ => .done (.ok ()))
  | 4 => .tracked (.look 6 0 fun _ _ => .done (.ok ()))
  | _ => .plain (.ok ())

def tsys (t : Nat) : WSys (TW Nat) Unit :=
  { typeId := t, name := .system t, fn := ((sysOf t).prog t).run, borrows := viewsOf (.system t), tracking := [], runIf := none,
    tags := [.system t], beforeAll := [], afterAll := [], after := [], before := [], uid := 0, reqIn := [], reqBefore := [],
    reqAfter := [] }

theorem tsys_fresh (t : Nat) (h : checkBorrows (viewsOf (.system t)) = .ok ()) : Fresh (tsys t) := by
  refine .ofFn (t := t) (bs := viewsOf (.system t)) (f := ((sysOf t).prog t).run) (tr := []) ?_
  unfold WSys.ofFn
  rw [h]; rfl

/-- Runs system 2 only if storage 6 was changed since the condition was last evaluated. -/
def changed6 : Cond (TW Nat) Unit := condition 1 (.look 6 0 fun _ b => .done (.ok b))

def demo : Workload (TW Nat) Unit :=
  (((Workload.new (.str 1)).withSystem (tsys 1)).withSystem ((tsys 2).addRunIf changed6)).withSystem (tsys 3)

theorem demo_built : Built demo :=
  .withSystem (.withSystem (.withSystem (.new _ trivial) (tsys_fresh _ rfl)) (.runIf _ (tsys_fresh _ rfl))) (tsys_fresh _ rfl)

theorem changed6_cond : IsCond viewsOf changed6 := .one (.look ⟨view 6, List.mem_cons_self, rfl⟩ fun _ _ => .done _)

theorem within1 : (sysOf 1).Within (viewsOf (.system 1)) := .write ⟨viewMut 5, List.mem_cons_self, rfl, rfl⟩ (.done _)

theorem within2 : (sysOf 2).Within (viewsOf (.system 2)) := by
  refine .look ⟨view 6, List.mem_cons_self, rfl⟩ fun v b => ?_
  cases b
  · exact .done _
  · exact .write ⟨viewMut 7, List.mem_cons_of_mem _ List.mem_cons_self, rfl, rfl⟩ (.done _)

theorem within3 : (sysOf 3).Within (viewsOf (.system 3)) :=
  .look ⟨view 5, List.mem_cons_self, rfl⟩ fun _ _ => .look ⟨view 7, List.mem_cons_of_mem _ List.mem_cons_self, rfl⟩ fun _ _ => .done _

theorem demo_tracks : Tracks viewsOf sysOf demo := by
  have hmem : ∀ s ∈ demo.systems, s = tsys 1 ∨ s = { (tsys 2).addRunIf changed6 with uid := 1 } ∨ s = { tsys 3 with uid := 2 } := by
    intro s hs
    have : s ∈ [tsys 1, { (tsys 2).addRunIf changed6 with uid := 1 }, { tsys 3 with uid := 2 }] := hs
    simpa only [List.mem_cons, List.not_mem_nil, or_false] using this
  refine ⟨?_, ?_, ?_, ?_, ?_⟩
  · intro s hs
    rcases hmem s hs with rfl | rfl | rfl <;> rfl
  · intro s hs
    rcases hmem s hs with rfl | rfl | rfl
    · exact within1
    · exact within2
    · exact within3
  · show [1, 2, 3].Nodup
    decide
  · intro s hs c hc
    rcases hmem s hs with rfl | rfl | rfl
    · cases hc
    · cases hc; exact changed6_cond
    · cases hc
  · intro c hc
    cases hc

/-- The world before the first run: storage 6 was changed. -/
def start : TW Nat := (TW.new fun _ _ => 0).fresh 6 0 9

def progs : List (Prog (TW Nat) Unit) := [(sysOf 1).prog 1, (sysOf 2).prog 2, (sysOf 3).prog 3]

def names : List Label := [.system 1, .system 2, .system 3]

def made : Created (TW Nat) Unit := (createWorkload Scheduler.empty demo).toOption.get rfl

theorem made_ok : createWorkload Scheduler.empty demo = .ok made := rfl

example : made.batches.parallel = [(none, [0, 1]), (none, [2])] := rfl
example : made.batches.parallelRunIf = [(none, [none, some 0]), (none, [none])] := rfl

theorem made_lists : made.sch.Lists progs fun t => (sysOf t).prog t := by
  intro p hp
  have hp : p ∈ [(1, 0), (2, 1), (3, 2)] := hp
  simp only [List.mem_cons, List.not_mem_nil, or_false] at hp
  rcases hp with rfl | rfl | rfl <;> rfl

/-- The first run: the condition holds; 1 and 2 take turns; then 3. -/
def t1 : Option (TW Nat × List (Task (TW Nat) Unit)) :=
  stepsOf [0, 1, 1, 0, 0, 1, 1, 0, 0, 0, 1, 1, 1]
    ((changed6 start).1, [⟨0, true, .todo ((sysOf 1).prog 1)⟩, ⟨1, false, .todo ((sysOf 2).prog 2)⟩])
def s1 : TW Nat × List (Task (TW Nat) Unit) := t1.get rfl
def t2 : Option (TW Nat × List (Task (TW Nat) Unit)) := stepsOf [0, 0, 0, 0, 0, 0, 0] (s1.1, [⟨2, true, .todo ((sysOf 3).prog 3)⟩])
def s2 : TW Nat × List (Task (TW Nat) Unit) := t2.get rfl

/-- The second run: the condition does not hold; 1 runs; then 3. -/
def t3 : Option (TW Nat × List (Task (TW Nat) Unit)) :=
  stepsOf [0, 0, 0, 0, 0, 0] ((changed6 s2.1).1, [⟨0, true, .todo ((sysOf 1).prog 1)⟩])
def s3 : TW Nat × List (Task (TW Nat) Unit) := t3.get rfl
def t4 : Option (TW Nat × List (Task (TW Nat) Unit)) := stepsOf [0, 0, 0, 0, 0, 0, 0] (s3.1, [⟨2, true, .todo ((sysOf 3).prog 3)⟩])
def s4 : TW Nat × List (Task (TW Nat) Unit) := t4.get rfl

theorem steps_of {l : List Nat} {w : TW Nat} {ts : List (Task (TW Nat) Unit)} {s' : TW Nat × List (Task (TW Nat) Unit)}
    (h : stepsOf l (w, ts) = some s') : Steps w ts s'.1 s'.2 :=
  stepsOf_ok l (s0 := (w, ts)) .refl h

theorem run1 : RunWorkload made.batches progs names (.str 1) start s2.1 (.ok ()) := by
  refine .plain rfl ?_
  show RunPar _ _ _ [((none, [0, 1]), (none, [none, some 0])), ((none, [2]), (none, [none]))] _ _ _
  refine .next (w' := s1.1) (.systems (w1 := (changed6 start).1) (m := true) (flags := [true, true]) rfl rfl rfl
    (steps_of (l := [0, 1, 1, 0, 0, 1, 1, 0, 0, 0, 1, 1, 1]) (s' := s1) rfl) ?_ (.ok ?_))
    (.next (w' := s2.1) (.systems (w1 := s1.1) (m := true) (flags := [true]) rfl rfl rfl
      (steps_of (l := [0, 0, 0, 0, 0, 0, 0]) (s' := s2) rfl) ?_ (.ok ?_)) .nil)
  · intro t ht
    have ht : t ∈ [⟨0, true, .ended (.ok ())⟩, ⟨1, false, .ended (.ok ())⟩] := ht
    simp only [List.mem_cons, List.not_mem_nil, or_false] at ht
    rcases ht with rfl | rfl <;> exact .inr ⟨_, rfl⟩
  · intro t ht e he
    have ht : t ∈ [⟨0, true, .ended (.ok ())⟩, ⟨1, false, .ended (.ok ())⟩] := ht
    simp only [List.mem_cons, List.not_mem_nil, or_false] at ht
    rcases ht with rfl | rfl <;> cases he
  · intro t ht
    have ht : t ∈ [⟨2, true, .ended (.ok ())⟩] := ht
    rw [List.mem_singleton.mp ht]
    exact .inr ⟨_, rfl⟩
  · intro t ht e he
    have ht : t ∈ [⟨2, true, .ended (.ok ())⟩] := ht
    rw [List.mem_singleton.mp ht] at he
    cases he

theorem run2 : RunWorkload made.batches progs names (.str 1) s2.1 s4.1 (.ok ()) := by
  refine .plain rfl ?_
  show RunPar _ _ _ [((none, [0, 1]), (none, [none, some 0])), ((none, [2]), (none, [none]))] _ _ _
  refine .next (w' := s3.1) (.systems (w1 := (changed6 s2.1).1) (m := true) (flags := [true, false]) rfl rfl rfl
    (steps_of (l := [0, 0, 0, 0, 0, 0]) (s' := s3) rfl) ?_ (.ok ?_))
    (.next (w' := s4.1) (.systems (w1 := s3.1) (m := true) (flags := [true]) rfl rfl rfl
      (steps_of (l := [0, 0, 0, 0, 0, 0, 0]) (s' := s4) rfl) ?_ (.ok ?_)) .nil)
  · intro t ht
    have ht : t ∈ [⟨0, true, .ended (.ok ())⟩] := ht
    rw [List.mem_singleton.mp ht]
    exact .inr ⟨_, rfl⟩
  · intro t ht e he
    have ht : t ∈ [⟨0, true, .ended (.ok ())⟩] := ht
    rw [List.mem_singleton.mp ht] at he
    cases he
  · intro t ht
    have ht : t ∈ [⟨2, true, .ended (.ok ())⟩] := ht
    rw [List.mem_singleton.mp ht]
    exact .inr ⟨_, rfl⟩
  · intro t ht e he
    have ht : t ∈ [⟨2, true, .ended (.ok ())⟩] := ht
    rw [List.mem_singleton.mp ht] at he
    cases he

/-- The history of both runs, and what happened (the newest first). -/
theorem demo_hist : Hist viewsOf sysOf s4.1 :=
  .run (.run (.outside 6 0 9 (.new _)) demo_built demo_tracks made_ok made_lists run1) demo_built demo_tracks made_ok made_lists run2

example : s4.1.log =
    [.ended (.system 3), .told (.system 3) 7 0 false, .told (.system 3) 5 0 true,
     .ended (.system 1), .wrote 5 0, .ended (.condition 1), .told (.condition 1) 6 0 false,
     .ended (.system 3), .told (.system 3) 7 0 true, .told (.system 3) 5 0 true,
     .ended (.system 2), .wrote 7 0, .ended (.system 1), .wrote 5 0, .told (.system 2) 6 0 true,
     .ended (.condition 1), .told (.condition 1) 6 0 true, .wrote 6 0] := rfl

/-- The same function twice. -/
def twice : Workload (TW Nat) Unit := ((Workload.new (.str 1)).withSystem (tsys 4)).withSystem (tsys 4)

theorem twice_built : Built twice := .withSystem (.withSystem (.new _ trivial) (tsys_fresh _ rfl)) (tsys_fresh _ rfl)

def madeTwice : Created (TW Nat) Unit := (createWorkload Scheduler.empty twice).toOption.get rfl

/-- Both take the time; the second remembers its time first, then the first does, and takes the second's for its last run. -/
def t5 : Option (TW Nat × List (Task (TW Nat) Unit)) :=
  stepsOf [0, 1, 0, 1, 1, 0, 0, 1, 0, 0, 1, 1]
    (start, [⟨0, true, .todo ((sysOf 4).prog 4)⟩, ⟨0, false, .todo ((sysOf 4).prog 4)⟩])
def s5 : TW Nat × List (Task (TW Nat) Unit) := t5.get rfl

theorem run5 : RunWorkload madeTwice.batches [(sysOf 4).prog 4] [.system 4] (.str 1) start s5.1 (.ok ()) := by
  refine .plain rfl ?_
  show RunPar _ _ _ [((none, [0, 0]), (none, [none, none]))] _ _ _
  refine .next (w' := s5.1) (.systems (w1 := start) (m := true) (flags := [true, true]) rfl rfl rfl
    (steps_of (l := [0, 1, 0, 1, 1, 0, 0, 1, 0, 0, 1, 1]) (s' := s5) rfl) ?_ (.ok ?_)) .nil
  · intro t ht
    have ht : t ∈ [⟨0, true, .ended (.ok ())⟩, ⟨0, false, .ended (.ok ())⟩] := ht
    simp only [List.mem_cons, List.not_mem_nil, or_false] at ht
    rcases ht with rfl | rfl <;> exact .inr ⟨_, rfl⟩
  · intro t ht e he
    have ht : t ∈ [⟨0, true, .ended (.ok ())⟩, ⟨0, false, .ended (.ok ())⟩] := ht
    simp only [List.mem_cons, List.not_mem_nil, or_false] at ht
    rcases ht with rfl | rfl <;> cases he

end Ex

open Told.Ex in
/-- C83 fails if a workload has the same function twice: both share the memory of their last run, so one of them can be told that
nothing was changed although no run of it ever ended. All else is as in `Hist`. -/
theorem C83_twice_fails : ∃ (viewsOf : Who → List TypeInfo) (sysOf : Nat → Sys Nat Unit) (w w' : TW Nat) (wl : Workload (TW Nat) Unit)
    (c : Created (TW Nat) Unit) (progs : List (Prog (TW Nat) Unit)) (names : List Label),
    Hist viewsOf sysOf w ∧ Built wl ∧ (∀ s ∈ wl.systems, s.borrows = viewsOf (.system s.typeId)
      ∧ (sysOf s.typeId).Within s.borrows ∧ s.runIf = none) ∧ wl.runIf = none
    ∧ createWorkload Scheduler.empty wl = .ok c ∧ c.sch.Lists progs (fun t => (sysOf t).prog t)
    ∧ RunWorkload c.batches progs names wl.name w w' (.ok ())
    ∧ ∃ newer i x k older, w'.log = newer ++ .told i x k false :: older ∧ Changed i x k older ∧ Ev.ended i ∉ older := by
  refine ⟨viewsOf, sysOf, start, s5.1, twice, madeTwice, [(sysOf 4).prog 4], [.system 4], .outside 6 0 9 (.new _), twice_built, ?_, rfl,
    rfl, ?_, run5, [.ended (.system 4), .ended (.system 4), .told (.system 4) 6 0 true], .system 4, 6, 0, [.wrote 6 0], rfl,
    ⟨[], [], rfl, List.not_mem_nil⟩, by decide⟩
  · intro s hs
    have : s ∈ [tsys 4, { tsys 4 with uid := 1 }] := hs
    simp only [List.mem_cons, List.not_mem_nil, or_false] at this
    have hw : (sysOf 4).Within (viewsOf (.system 4)) := .look ⟨Sched.Ex.view 6, List.mem_cons_self, rfl⟩ fun _ _ => .done _
    rcases this with rfl | rfl <;> exact ⟨rfl, hw, rfl⟩
  · intro p hp
    have hp : p ∈ [(4, 0)] := hp
    rw [List.mem_singleton.mp hp]
    rfl

end Verif.Sched.Told
