import Verif.Lemmas.ParallelAny
import Verif.Props.Parallel

/-!
# C59, C60: parallel runs of all workloads

Nothing is assumed about what systems and conditions do. `InTurn` and `AtOnce` (in `Spec/ParallelAny.lean`) say what a parallel run
may do in terms of the systems of the workload.
-/
namespace Verif.Sched

section
variable {W ε : Type} {progOf : Nat → Prog W ε} {w : Workload W ε} {sch : Scheduler W ε} {c : Created W ε}
  {progs : List (Prog W ε)} {names : List Label} {nameOf : Nat → Label}

/-- C59, parallel: the condition of the workload is asked first; if it is false no system runs. Otherwise the groups of the plan run
one after the other, and in each group all conditions are asked first and exactly the systems whose condition held are started. -/
theorem C59_parallel (hw : Built w) (h : createWorkload sch w = .ok c) (hp : c.sch.Lists progs progOf)
    (hn : c.sch.Lists names nameOf) :
    Schedule w c.plan ∧ ∃ Ls : List (List (WSys W ε)), (∀ p ∈ c.plan, p.2 < Ls.length)
      ∧ (∀ (k : Nat) L, Ls[k]? = some L → L.Perm (w.group c.plan k))
      ∧ ∀ l w0 w' res, RunWorkload c.batches progs names l w0 w' res →
        match evalC w.runIf w0 with
        | (w1, .error e) => w' = w1 ∧ res = .error (.run l e)
        | (w1, .ok false) => w' = w1 ∧ res = .ok ()
        | (w1, .ok true) => InTurn progOf nameOf Ls w1 w' res := by
  have hz : c.sch.Lists (names.zip progs) (fun t => (nameOf t, progOf t)) := by
    intro p h
    exact List.getElem?_zip_eq_some.mpr ⟨hn p h, hp p h⟩
  have hreal := created_realises hw h hz (val := fun s => (nameOf s.typeId, progOf s.typeId)) (fun _ _ => rfl)
  obtain ⟨Ls, g1, g2, g3⟩ := realises_holdAll hreal
  refine ⟨hreal.schedule, Ls, fun p hp => g2 ▸ hreal.bound p hp, g3, ?_⟩
  intro l w0 w' res hr
  rw [← hreal.cond]
  cases hr with
  | plain hnone hr => rw [hnone]; exact inTurn_of_par g1 hr
  | conditionErr hsome he => rw [hsome, show evalC (some _) w0 = _ from he]; exact ⟨rfl, rfl⟩
  | conditionFalse hsome he => rw [hsome, show evalC (some _) w0 = _ from he]; exact ⟨rfl, rfl⟩
  | conditionTrue hsome he hr => rw [hsome, show evalC (some _) w0 = _ from he]; exact inTurn_of_par g1 hr

theorem inTurn_split : ∀ {Ls : List (List (WSys W ε))} {w w' : W} {e}, InTurn progOf nameOf Ls w w' (.error e) →
    ∃ pre L post w1, Ls = pre ++ L :: post ∧ InTurn progOf nameOf pre w w1 (.ok ()) ∧ AtOnce progOf nameOf L w1 w' (.error e)
  | [], _, _, _, h => by cases h
  | L :: Ls, w, w', e, h => by
    cases h with
    | stop h => exact ⟨[], L, Ls, w, rfl, .nil, h⟩
    | next h1 h2 =>
      obtain ⟨pre, M, post, w1, k1, k2, k3⟩ := inTurn_split h2
      exact ⟨L :: pre, M, post, w1, by rw [k1]; rfl, .next h1 k2, k3⟩

/-- C60, parallel: a run that fails did so because the condition of the workload failed, or because of one group: all groups before
it ran, and every system started in them ended without error; the error is the one of a condition of that group, and then none of its
systems started, or of a system of that group that was started and has ended with it; no system of a later group has started, and the
world is as that group left it. -/
theorem C60_parallel (hw : Built w) (h : createWorkload sch w = .ok c) (hp : c.sch.Lists progs progOf)
    (hn : c.sch.Lists names nameOf) {l : Label} {w0 w' : W} {err} (hr : RunWorkload c.batches progs names l w0 w' (.error err)) :
    (∃ e, evalC w.runIf w0 = (w', .error e) ∧ err = .run l e)
    ∨ ∃ Ls L w1 w2, evalC w.runIf w0 = (w1, .ok true) ∧ (∀ (k : Nat) M, Ls[k]? = some M → M.Perm (w.group c.plan k))
      ∧ InTurn progOf nameOf Ls w1 w2 (.ok ()) ∧ L.Perm (w.group c.plan Ls.length)
      ∧ ((∃ s ∈ L, ∃ e, askAll L w2 = (w', .error (s, e)) ∧ err = .run (nameOf s.typeId) e)
        ∨ ∃ w3 flags ts ts' s e, askAll L w2 = (w3, .ok flags)
          ∧ ts.map (·.status) = (chosen L flags).map (fun s => .todo (progOf s.typeId)) ∧ Steps w3 ts w' ts' ∧ (∀ t ∈ ts', t.over)
          ∧ (∃ (i : Nat) (t : Task W ε), (chosen L flags)[i]? = some s ∧ ts'[i]? = some t ∧ t.status = .ended (.error e))
          ∧ err = .run (nameOf s.typeId) e) := by
  obtain ⟨_, Ls, _, hg, hall⟩ := C59_parallel hw h hp hn
  have hm := hall l w0 w' _ hr
  rcases he : evalC w.runIf w0 with ⟨w1, e | (_ | _)⟩
  · rw [he] at hm
    obtain ⟨rfl, h2⟩ := hm
    cases h2
    exact .inl ⟨e, rfl, rfl⟩
  · rw [he] at hm
    exact absurd hm.2 (fun h => by cases h)
  · rw [he] at hm
    obtain ⟨pre, L, post, w2, rfl, k2, k3⟩ := inTurn_split (show InTurn progOf nameOf Ls w1 w' (.error err) from hm)
    refine .inr ⟨pre, L, w1, w2, rfl, ?_, k2, hg pre.length L ?_, ?_⟩
    · intro k M hM
      refine hg k M ?_
      rw [List.getElem?_append_left (List.getElem?_eq_some_iff.mp hM).1]
      exact hM
    · rw [List.getElem?_append_right (Nat.le_refl _), Nat.sub_self]
      rfl
    · generalize hres : (Except.error err : Except (RunErr ε) Unit) = res at k3
      cases k3 with
      | refused ha =>
        cases hres
        refine .inl ⟨_, ?_, _, ha, rfl⟩
        exact askAll_mem ha
      | ok => cases hres
      | failed ha h1 h2 h3 h4 h5 h6 =>
        cases hres
        exact .inr ⟨_, _, _, _, _, _, ha, h1, h2, h3, ⟨_, _, h4, h5, h6⟩, rfl⟩

end

/-! ## Concrete workloads -/

namespace Ex

/-- A condition that changes the world: it counts how often it was asked. -/
def counting : Cond P Unit := fun w => (put 9 (w 9 + 1) w, .ok (w 9 == 0))

/-- Two systems under the same condition, in one group: only the first of them asked runs. -/
def askDemo : Workload P Unit :=
  ((Workload.new (.str 1)).withSystem ((psys 1 [viewMut 5]).addRunIf counting)).withSystem
    ((psys 2 [view 6, viewMut 7]).addRunIf counting)

theorem askDemo_built : Built askDemo :=
  .withSystem (.withSystem (.new _ trivial) (.runIf _ (psys_fresh _ _ rfl))) (.runIf _ (psys_fresh _ _ rfl))

theorem askDemo_created : ∃ c, createWorkload Scheduler.empty askDemo = .ok c ∧ c.plan = [(0, 0), (1, 0)] ∧ c.sch.lookup = [(1, 0), (2, 1)] := by
  have h : (createWorkload Scheduler.empty askDemo).toOption.map (fun c => (c.plan, c.sch.lookup))
      = some ([(0, 0), (1, 0)], [(1, 0), (2, 1)]) := by rfl
  cases hc : createWorkload Scheduler.empty askDemo with
  | error e => rw [hc] at h; cases h
  | ok c =>
    rw [hc] at h
    have h' := Option.some.inj h
    exact ⟨c, rfl, congrArg Prod.fst h', congrArg Prod.snd h'⟩

/-- A run of it: both conditions are asked, the first system runs. -/
example : ∃ w', AtOnce progOf Label.system askDemo.systems (fun _ => 0) w' (.ok ()) ∧ w' 9 = 2 ∧ w' 5 = 1 ∧ w' 7 = 0 := by
  let w1 : P := put 9 2 (put 9 1 fun _ => 0)
  refine ⟨put 5 (w1 5 + 1) w1, .ok (w1 := w1) (flags := [true, false]) (ts := [⟨0, true, .todo (progOf 1)⟩])
    (ts' := [⟨0, true, .ended (.ok ())⟩]) rfl rfl ?_ ?_, rfl, rfl, rfl⟩
  · refine .tail (.tail (.tail (.tail .refl (.start 0 _ rfl rfl)) (.act 0 id (fun w => .act (put 5 (w 5 + 1)) fun _ => .done (.ok ())) rfl rfl))
      (.act 0 (put 5 (w1 5 + 1)) (fun _ => .done (.ok ())) rfl rfl)) (.finish (ts := [⟨0, true, .going (.done (.ok ()))⟩]) 0 (.ok ()) rfl rfl)
  · intro t ht
    simp only [List.mem_cons, List.not_mem_nil, or_false] at ht
    subst ht
    rfl

end Ex

end Verif.Sched
