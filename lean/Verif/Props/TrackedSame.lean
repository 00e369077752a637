import Verif.Lemmas.TrackedSame
import Verif.Props.TrackedRun

/-!
# C85: parallel runs and sequential runs cannot be told apart by systems that track changes

`Alike` (in `Spec/TrackedRun.lean`) compares two worlds by what systems and conditions can see: values, what they were told, what they would be told now.
The clock and the times are not compared: they do depend on the interleaving.
-/
namespace Verif.Sched.Told

variable {V ε : Type}

section
variable {viewsOf : Who → List TypeInfo} {sysOf : Nat → Sys V ε} {wl : Workload (TW V) ε} {sch : Scheduler (TW V) ε}
  {c : Created (TW V) ε} {ids : List Nat} {names : List Label} {l : Label}

/-- C85: after any history, a parallel run in any interleaving succeeds if and only if the systems one after the other succeed, and then
the worlds are alike. Conditions may read, write and use what they are told. -/
theorem C85_run_partial {w w' : TW V} {res} (hw : Hist viewsOf sysOf w) (h : Added viewsOf sysOf wl sch c ids names)
    (hr : RunWorkload c.batches (tprogs sysOf ids) names l w w' res) :
    (res = .ok () ↔ (runAll l wl.runIf (wl.inOrder c.plan) w).2 = .ok ())
    ∧ (res = .ok () → Alike viewsOf w' (runAll l wl.runIf (wl.inOrder c.plan) w).1) := by
  have hrest := hist_rest hw
  obtain ⟨_, _, h3, h4⟩ := run_same (w.cell 0 0).1 h hrest hrest rfl hr
  exact ⟨h3, fun hres => alike_of_abs (h4 hres)⟩

/-- C85: whole histories: where the same changes are made and the same workloads succeed, in parallel on one side and one system after
the other on the other side, the worlds are alike. -/
theorem C85_history_partial {a b : TW V} (h : Twins viewsOf sysOf a b) : Alike viewsOf a b :=
  alike_of_abs (twins_same (a.cell 0 0).1 h).2.2

/-- C85: and the next run succeeds on one side if and only if it does on the other, whatever the interleaving. -/
theorem C85_next_partial {a b a' : TW V} {res} (h : Twins viewsOf sysOf a b) (hadd : Added viewsOf sysOf wl sch c ids names)
    (hr : RunWorkload c.batches (tprogs sysOf ids) names l a a' res) :
    (res = .ok () ↔ (runAll l wl.runIf (wl.inOrder c.plan) b).2 = .ok ())
    ∧ (res = .ok () → Twins viewsOf sysOf a' (runAll l wl.runIf (wl.inOrder c.plan) b).1) := by
  obtain ⟨h1, h2, h3⟩ := twins_same (a.cell 0 0).1 h
  obtain ⟨_, _, h4, _⟩ := run_same _ hadd h1 h2 h3 hr
  refine ⟨h4, fun hres => ?_⟩
  subst hres
  exact .run h hadd hr

/-- C85: conditions keep apart if each only has views its system has, and no two systems share one. -/
theorem C85_covered {made : Cond (TW V) ε → TCond V ε} (ht : Tracks viewsOf sysOf wl)
    (hm : ∀ s ∈ wl.systems, ∀ c, s.runIf = some c → c = (made c).cond ∧ (made c).Within viewsOf
      ∧ ∀ i ∈ (made c).parts, Covers s.borrows (viewsOf i))
    (hs : ∀ s ∈ wl.systems, ∀ s' ∈ wl.systems, s.typeId ≠ s'.typeId → ∀ c c', s.runIf = some c → s'.runIf = some c' →
      ∀ i ∈ (made c).parts, i ∉ (made c').parts) : CondsApart viewsOf made wl := by
  have cov : ∀ s ∈ wl.systems, ∀ i ∈ partsOf made s, Covers s.borrows (viewsOf i) := by
    intro s hs i hi
    unfold partsOf at hi
    rcases List.mem_cons.mp hi with rfl | hi
    · rw [ht.views s hs]
      exact fun a ha => ⟨a, ha, rfl, id⟩
    · cases hc : s.runIf with
      | none => rw [hc] at hi; cases hi
      | some c => rw [hc] at hi; exact (hm s hs c hc).2.2 i hi
  have isC : ∀ (t : TCond V ε), ∀ i ∈ t.parts, ∃ n, i = .condition n := by
    intro t
    induction t with
    | plain r => intro i hi; cases hi
    | one n p => intro i hi; exact ⟨n, List.mem_singleton.mp hi⟩
    | both a b iha ihb =>
      intro i hi
      rcases List.mem_append.mp hi with h | h
      · exact iha i h
      · exact ihb i h
  refine ⟨fun s hs c hc => ⟨(hm s hs c hc).1, (hm s hs c hc).2.1⟩, ?_⟩
  intro s h1 s' h2 hne hno i hi j hj
  constructor
  · rintro rfl
    unfold partsOf at hi hj
    rcases List.mem_cons.mp hi with rfl | hi'
    · rcases List.mem_cons.mp hj with h | hj'
      · injection h with h; exact hne h
      · cases hc' : s'.runIf with
        | none => rw [hc'] at hj'; cases hj'
        | some c' =>
          rw [hc'] at hj'
          obtain ⟨n, h⟩ := isC _ _ hj'
          cases h
    · cases hc : s.runIf with
      | none => rw [hc] at hi'; cases hi'
      | some c =>
        rw [hc] at hi'
        rcases List.mem_cons.mp hj with rfl | hj'
        · obtain ⟨n, h⟩ := isC _ _ hi'
          cases h
        · cases hc' : s'.runIf with
          | none => rw [hc'] at hj'; cases hj'
          | some c' => rw [hc'] at hj'; exact hs s h1 s' h2 hne c c' hc hc' i hi' hj'
  · intro a ha b hb h
    obtain ⟨a', ha', e1, e2⟩ := cov s h1 i hi a ha
    obtain ⟨b', hb', e3, e4⟩ := cov s' h2 j hj b hb
    refine hno ⟨a', ha', b', hb', ?_⟩
    cases h with
    | share k1 k2 => exact .share (by rw [e1, e3]; exact k1) (k2.imp e2 e4)
    | allLeft k => exact .allLeft (by rw [e1]; exact k)
    | allRight k => exact .allRight (by rw [e3]; exact k)

end

/-! ## A concrete run -/

namespace Ex
open Verif.Sched.Ex (view viewMut)

/-- Runs system 2 only if storage 6 was changed since the condition was last asked, and then first writes storage 7, which system 2 writes
too, and depends on storage 8, which system 2 has no view of. -/
def asks : TCond Nat Unit :=
  .both (.one 1 (.look 6 0 fun _ b => .done (.ok b))) (.one 2 (.look 8 0 fun v _ => .write 7 0 (v + 4) (.done (.ok true))))

def asked : Cond (TW Nat) Unit := asks.cond

theorem asks_within : asks.Within viewsOf :=
  ⟨.look ⟨view 6, List.mem_cons_self, rfl⟩ fun _ _ => .done _,
   .look ⟨view 8, List.mem_cons_of_mem _ List.mem_cons_self, rfl⟩ fun _ _ => .write ⟨viewMut 7, List.mem_cons_self, rfl, rfl⟩ (.done _)⟩

def both : Workload (TW Nat) Unit :=
  (((Workload.new (.str 1)).withSystem (tsys 1)).withSystem ((tsys 2).addRunIf asked)).withSystem (tsys 3)

theorem both_built : Built both :=
  .withSystem (.withSystem (.withSystem (.new _ trivial) (tsys_fresh _ rfl)) (.runIf _ (tsys_fresh _ rfl))) (tsys_fresh _ rfl)

theorem both_mem : ∀ s ∈ both.systems, s = tsys 1 ∨ s = { (tsys 2).addRunIf asked with uid := 1 } ∨ s = { tsys 3 with uid := 2 } := by
  intro s hs
  have : s ∈ [tsys 1, { (tsys 2).addRunIf asked with uid := 1 }, { tsys 3 with uid := 2 }] := hs
  simpa only [List.mem_cons, List.not_mem_nil, or_false] using this

def madeBoth : Created (TW Nat) Unit := (createWorkload Scheduler.empty both).toOption.get rfl

theorem both_added : Added viewsOf sysOf both Scheduler.empty madeBoth [1, 2, 3] names where
  built := both_built
  tracks := by
    refine ⟨?_, ?_, ?_, ?_, ?_⟩
    · intro s hs
      rcases both_mem s hs with rfl | rfl | rfl <;> rfl
    · intro s hs
      rcases both_mem s hs with rfl | rfl | rfl
      · exact within1
      · exact within2
      · exact within3
    · show [1, 2, 3].Nodup
      decide
    · intro s hs c hc
      rcases both_mem s hs with rfl | rfl | rfl
      · cases hc
      · cases hc; exact within_isCond asks asks_within
      · cases hc
    · intro c hc
      cases hc
  conds := by
    refine ⟨fun _ => asks, ?_, ?_⟩
    · intro s hs c hc
      rcases both_mem s hs with rfl | rfl | rfl
      · cases hc
      · cases hc; exact ⟨rfl, asks_within⟩
      · cases hc
    · have h12 : ∀ i ∈ [Who.system 1], ∀ j ∈ [Who.system 2, .condition 1, .condition 2],
          i ≠ j ∧ ∀ a ∈ viewsOf i, ∀ b ∈ viewsOf j, ¬ (a.storage = b.storage ∨ a.storage = allStorages ∨ b.storage = allStorages) := by
        decide
      have no : ∀ {a b : TypeInfo}, Overlap a b → a.storage = b.storage ∨ a.storage = allStorages ∨ b.storage = allStorages := by
        intro a b h
        cases h with
        | share h _ => exact .inl h
        | allLeft h => exact .inr (.inl h)
        | allRight h => exact .inr (.inr h)
      have c13 : Clash (viewMut 5) (view 5) := .share rfl (.inl rfl)
      have c23 : Clash (viewMut 7) (view 7) := .share rfl (.inl rfl)
      intro s hs s' hs' hne hno i hi j hj
      rcases both_mem s hs with rfl | rfl | rfl <;> rcases both_mem s' hs' with rfl | rfl | rfl
      · exact absurd rfl hne
      · exact ⟨(h12 i hi j hj).1, fun a ha b hb h => (h12 i hi j hj).2 a ha b hb (no h)⟩
      · exact absurd ⟨viewMut 5, List.mem_cons_self, view 5, List.mem_cons_self, c13⟩ hno
      · refine ⟨(h12 j hj i hi).1.symm, fun a ha b hb h => (h12 j hj i hi).2 b hb a ha ?_⟩
        rcases no h with h | h | h
        · exact .inl h.symm
        · exact .inr (.inr h)
        · exact .inr (.inl h)
      · exact absurd rfl hne
      · exact absurd ⟨viewMut 7, List.mem_cons_of_mem _ List.mem_cons_self, view 7, List.mem_cons_of_mem _ List.mem_cons_self, c23⟩ hno
      · exact absurd ⟨view 5, List.mem_cons_self, viewMut 5, List.mem_cons_self, .share rfl (.inr rfl)⟩ hno
      · exact absurd ⟨view 7, List.mem_cons_of_mem _ List.mem_cons_self, viewMut 7, List.mem_cons_of_mem _ List.mem_cons_self,
          .share rfl (.inr rfl)⟩ hno
      · exact absurd rfl hne
  fn := by
    intro s hs
    rcases both_mem s hs with rfl | rfl | rfl <;> rfl
  created := rfl
  ids := by
    intro p hp
    have hp : p ∈ [(1, 0), (2, 1), (3, 2)] := hp
    simp only [List.mem_cons, List.not_mem_nil, or_false] at hp
    rcases hp with rfl | rfl | rfl <;> rfl
  names := by
    refine ⟨.system, ?_⟩
    intro p hp
    have hp : p ∈ [(1, 0), (2, 1), (3, 2)] := hp
    simp only [List.mem_cons, List.not_mem_nil, or_false] at hp
    rcases hp with rfl | rfl | rfl <;> rfl

def t6 : Option (TW Nat × List (Task (TW Nat) Unit)) :=
  stepsOf [0, 1, 1, 0, 0, 1, 1, 1, 0, 1, 1, 0, 0]
    ((asked start).1, [⟨0, true, .todo ((sysOf 1).prog 1)⟩, ⟨1, false, .todo ((sysOf 2).prog 2)⟩])
def s6 : TW Nat × List (Task (TW Nat) Unit) := t6.get rfl
def t7 : Option (TW Nat × List (Task (TW Nat) Unit)) := stepsOf [0, 0, 0, 0, 0, 0, 0] (s6.1, [⟨2, true, .todo ((sysOf 3).prog 3)⟩])
def s7 : TW Nat × List (Task (TW Nat) Unit) := t7.get rfl

theorem run6 : RunWorkload madeBoth.batches (tprogs sysOf [1, 2, 3]) names (.str 1) start s7.1 (.ok ()) := by
  refine .plain rfl ?_
  show RunPar _ _ _ [((none, [0, 1]), (none, [none, some 0])), ((none, [2]), (none, [none]))] _ _ _
  refine .next (w' := s6.1) (.systems (w1 := (asked start).1) (m := true) (flags := [true, true]) rfl rfl rfl
    (steps_of (l := [0, 1, 1, 0, 0, 1, 1, 1, 0, 1, 1, 0, 0]) (s' := s6) rfl) ?_ (.ok ?_))
    (.next (w' := s7.1) (.systems (w1 := s6.1) (m := true) (flags := [true]) rfl rfl rfl
      (steps_of (l := [0, 0, 0, 0, 0, 0, 0]) (s' := s7) rfl) ?_ (.ok ?_)) .nil)
  · intro t ht
    have ht : t ∈ [⟨0, true, .ended (.ok ())⟩, ⟨1, false, .ended (.ok ())⟩] := ht
    simp only [List.mem_cons, List.not_mem_nil, or_false] at ht
    rcases ht with rfl | rfl <;> exact .inr ⟨_, rfl⟩
  · intro t ht e he
    have ht : t ∈ [⟨0, true, .ended (.ok ())⟩, ⟨1, false, .ended (.ok ())⟩] := ht
    simp only [List.mem_cons, List.not_mem_nil, or_false] at ht
    rcases ht with rfl | rfl <;> cases he
  · intro t ht
    have ht : t ∈ [⟨2, true, .ended (.ok ())⟩] := ht
    rw [List.mem_singleton.mp ht]
    exact .inr ⟨_, rfl⟩
  · intro t ht e he
    have ht : t ∈ [⟨2, true, .ended (.ok ())⟩] := ht
    rw [List.mem_singleton.mp ht] at he
    cases he

def seq7 : TW Nat := (runAll (.str 1) both.runIf (both.inOrder madeBoth.plan) start).1

/-- The twins of this run. -/
theorem twins7 : Twins viewsOf sysOf s7.1 seq7 := .run (.outside 6 0 9 (.new _)) both_added run6

/-- They happened in a different order, at different times. -/
example : s7.1.log = [.ended (.system 3), .told (.system 3) 7 0 true, .told (.system 3) 5 0 true, .ended (.system 1), .ended (.system 2),
    .wrote 5 0, .wrote 7 0, .told (.system 2) 6 0 true, .ended (.condition 2), .wrote 7 0,
    .told (.condition 2) 8 0 false, .ended (.condition 1), .told (.condition 1) 6 0 true, .wrote 6 0] := rfl
example : seq7.log = [.ended (.system 3), .told (.system 3) 7 0 true, .told (.system 3) 5 0 true, .ended (.system 2), .wrote 7 0,
    .told (.system 2) 6 0 true, .ended (.condition 2), .wrote 7 0,
    .told (.condition 2) 8 0 false, .ended (.condition 1), .told (.condition 1) 6 0 true, .ended (.system 1), .wrote 5 0, .wrote 6 0] := rfl
example : (s7.1.cell 5 0, s7.1.cell 7 0) = ((1, 5), (9, 4)) ∧ (seq7.cell 5 0, seq7.cell 7 0) = ((1, 2), (9, 5)) := ⟨rfl, rfl⟩

example : Alike viewsOf s7.1 seq7 := C85_history_partial twins7

/-- A condition with a view its system has. -/
example : CondsApart viewsOf (fun _ => .one 1 (.look 6 0 fun _ b => .done (.ok b))) demo := by
  have hmem : ∀ s ∈ demo.systems, s = tsys 1 ∨ s = { (tsys 2).addRunIf changed6 with uid := 1 } ∨ s = { tsys 3 with uid := 2 } := by
    intro s hs
    have : s ∈ [tsys 1, { (tsys 2).addRunIf changed6 with uid := 1 }, { tsys 3 with uid := 2 }] := hs
    simpa only [List.mem_cons, List.not_mem_nil, or_false] using this
  refine C85_covered demo_tracks ?_ ?_
  · intro s hs c hc
    rcases hmem s hs with rfl | rfl | rfl
    · cases hc
    · cases hc
      refine ⟨rfl, .look ⟨view 6, List.mem_cons_self, rfl⟩ fun _ _ => .done _, fun i hi a ha => ?_⟩
      rw [List.mem_singleton.mp hi] at ha
      exact ⟨a, by rw [List.mem_singleton.mp ha]; exact List.mem_cons_self, rfl, id⟩
    · cases hc
  · intro s hs s' hs' hne c c' hc hc'
    rcases hmem s hs with rfl | rfl | rfl <;> rcases hmem s' hs' with rfl | rfl | rfl <;> first | cases hc; done | cases hc'; done | exact absurd rfl hne

/-! The condition of system 2 asks about storage 5, which system 1 writes. -/

def changed5 : Cond (TW Nat) Unit := condition 3 (.look 5 0 fun _ b => .done (.ok b))

def overlap : Workload (TW Nat) Unit := ((Workload.new (.str 1)).withSystem (tsys 1)).withSystem ((tsys 2).addRunIf changed5)

theorem overlap_built : Built overlap :=
  .withSystem (.withSystem (.new _ trivial) (tsys_fresh _ rfl)) (.runIf _ (tsys_fresh _ rfl))

def madeOverlap : Created (TW Nat) Unit := (createWorkload Scheduler.empty overlap).toOption.get rfl

def tOver : Option (TW Nat × List (Task (TW Nat) Unit)) :=
  stepsOf [0, 0, 0, 0, 0, 0] ((changed5 start).1, [⟨0, true, .todo ((sysOf 1).prog 1)⟩])
def sOver : TW Nat × List (Task (TW Nat) Unit) := tOver.get rfl

theorem runOver : RunWorkload madeOverlap.batches (tprogs sysOf [1, 2]) [.system 1, .system 2] (.str 1) start sOver.1 (.ok ()) := by
  refine .plain rfl ?_
  show RunPar _ _ _ [((none, [0, 1]), (none, [none, some 0]))] _ _ _
  refine .next (w' := sOver.1) (.systems (w1 := (changed5 start).1) (m := true) (flags := [true, false]) rfl rfl rfl
    (steps_of (l := [0, 0, 0, 0, 0, 0]) (s' := sOver) rfl) ?_ (.ok ?_)) .nil
  · intro t ht
    have ht : t ∈ [⟨0, true, .ended (.ok ())⟩] := ht
    rw [List.mem_singleton.mp ht]
    exact .inr ⟨_, rfl⟩
  · intro t ht e he
    have ht : t ∈ [⟨0, true, .ended (.ok ())⟩] := ht
    rw [List.mem_singleton.mp ht] at he
    cases he

end Ex

open Told.Ex in
/-- C85 fails for conditions that overlap with another system (all else is as in `Added`): system 2 is to run when storage 5 was changed,
system 1 changes it. One after the other, system 2 runs. In parallel the condition is asked before system 1 runs, so system 2 does not. -/
theorem C85_overlap_fails : ∃ (viewsOf : Who → List TypeInfo) (sysOf : Nat → Sys Nat Unit) (w w' : TW Nat) (wl : Workload (TW Nat) Unit)
    (c : Created (TW Nat) Unit) (ids : List Nat) (names : List Label), Hist viewsOf sysOf w ∧ Built wl ∧ Tracks viewsOf sysOf wl
    ∧ (∀ s ∈ wl.systems, s.fn = ((sysOf s.typeId).prog s.typeId).run) ∧ createWorkload Scheduler.empty wl = .ok c
    ∧ c.sch.Lists ids (fun t => t) ∧ (∃ nameOf, c.sch.Lists names nameOf)
    ∧ RunWorkload c.batches (tprogs sysOf ids) names wl.name w w' (.ok ())
    ∧ (runAll wl.name wl.runIf (wl.inOrder c.plan) w).2 = .ok ()
    ∧ w'.cell 7 0 = (0, 0) ∧ ((runAll wl.name wl.runIf (wl.inOrder c.plan) w).1.cell 7 0).1 = 9
    ∧ ¬ Alike viewsOf w' (runAll wl.name wl.runIf (wl.inOrder c.plan) w).1 := by
  have hmem : ∀ s ∈ overlap.systems, s = tsys 1 ∨ s = { (tsys 2).addRunIf changed5 with uid := 1 } := by
    intro s hs
    have : s ∈ [tsys 1, { (tsys 2).addRunIf changed5 with uid := 1 }] := hs
    simpa only [List.mem_cons, List.not_mem_nil, or_false] using this
  refine ⟨viewsOf, sysOf, start, sOver.1, overlap, madeOverlap, [1, 2], [.system 1, .system 2], .outside 6 0 9 (.new _), overlap_built,
    ⟨?_, ?_, ?_, ?_, ?_⟩, ?_, rfl, ?_, ⟨.system, ?_⟩, runOver, rfl, rfl, rfl, ?_⟩
  · intro s hs
    rcases hmem s hs with rfl | rfl <;> rfl
  · intro s hs
    rcases hmem s hs with rfl | rfl
    · exact within1
    · exact within2
  · show [1, 2].Nodup
    decide
  · intro s hs c hc
    rcases hmem s hs with rfl | rfl
    · cases hc
    · cases hc; exact .one (.look ⟨Sched.Ex.view 5, List.mem_cons_self, rfl⟩ fun _ _ => .done _)
  · intro c hc
    cases hc
  · intro s hs
    rcases hmem s hs with rfl | rfl <;> rfl
  · intro p hp
    have hp : p ∈ [(1, 0), (2, 1)] := hp
    simp only [List.mem_cons, List.not_mem_nil, or_false] at hp
    rcases hp with rfl | rfl <;> rfl
  · intro p hp
    have hp : p ∈ [(1, 0), (2, 1)] := hp
    simp only [List.mem_cons, List.not_mem_nil, or_false] at hp
    rcases hp with rfl | rfl <;> rfl
  · intro h
    have h1 : (0 : Nat) = 9 := h.values 7 0
    cases h1

end Verif.Sched.Told
