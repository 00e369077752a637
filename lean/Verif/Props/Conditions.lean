import Verif.Props.Running
import Verif.Props.Workloads
import Verif.Spec.Conditions

/-!
# C59: what each system of a workload is under, for all ways to build workloads
-/
namespace Verif.Sched
variable {W ε : Type}

/-- All conditions, the first one first. -/
def allC : List (Cond W ε) → Cond W ε
  | [] => fun w => (w, .ok true)
  | c :: cs => bothC c (allC cs)

theorem bothC_assoc (a b c : Cond W ε) : bothC (bothC a b) c = bothC a (bothC b c) := by
  funext w
  unfold bothC
  rcases a w with ⟨w1, e | (_ | _)⟩ <;> rfl

theorem bothC_true (a : Cond W ε) : bothC a (allC []) = a := by
  funext w
  unfold bothC allC
  rcases h : a w with ⟨w1, e | (_ | _)⟩ <;> simp

theorem allC_append (a b : List (Cond W ε)) : allC (a ++ b) = bothC (allC a) (allC b) := by
  induction a with
  | nil => rfl
  | cons c a ih => rw [List.cons_append, allC, ih, allC, bothC_assoc]

theorem allC_snoc (a : List (Cond W ε)) (c : Cond W ε) : allC (a ++ [c]) = bothC (allC a) c := by
  rw [allC_append, allC, bothC_true]

theorem allC_holds : ∀ {cs : List (Cond W ε)} {w w' : W}, allC cs w = (w', .ok true) ↔ HoldInTurn cs w w'
  | [], w, w' => by
    constructor
    · intro h
      simp only [allC, Prod.mk.injEq, and_true] at h
      rw [← h]; exact .nil w
    · intro h; cases h; rfl
  | c :: cs, w, w' => by
    simp only [allC]
    unfold bothC
    constructor
    · intro h
      rcases hc : c w with ⟨w1, e | (_ | _)⟩ <;> rw [hc] at h <;> simp at h
      exact .cons hc (allC_holds.1 h)
    · intro h
      cases h with
      | cons hc h => rw [hc]; exact allC_holds.2 h

theorem own_eval {s : WSys W ε} {cs : List (Cond W ε)} (h : OwnConds s cs) : evalC s.runIf = allC cs := by
  induction h with
  | ofFn h =>
    unfold WSys.ofFn at h
    split at h
    · cases h
    · cases h; rfl
  | runIf c _ ih => rw [C59_run_if, ih, allC_snoc]
  | skipIf c _ ih => rw [C59_skip_if, ih, allC_snoc]; rfl
  | beforeAll _ _ ih | afterAll _ _ ih | displayName _ _ ih | tag _ _ ih | requireIn _ _ ih | requireBefore _ _ ih
  | requireAfter _ _ ih => exact ih

theorem get_lt' {α : Type} {l : List α} {i : Nat} {x : α} (h : l[i]? = some x) : i < l.length :=
  (List.getElem?_eq_some_iff.1 h).1

theorem chain_get : ∀ (ss : List (WSys W ε)) (i : Nat) (t : WSys W ε), (Workload.chainSystems ss)[i]? = some t →
    ∃ s, ss[i]? = some s ∧ t.runIf = s.runIf
  | [], i, t, h => by simp [Workload.chainSystems] at h
  | [s], i, t, h => ⟨t, h, rfl⟩
  | s :: s' :: rest, i, t, h => by
    simp only [Workload.chainSystems] at h
    cases i with
    | zero =>
      simp only [List.getElem?_cons_zero, Option.some.injEq] at h
      exact ⟨s, rfl, by rw [← h]; rfl⟩
    | succ i => exact chain_get (s' :: rest) i t h

theorem chain_length : ∀ (ss : List (WSys W ε)), (Workload.chainSystems ss).length = ss.length
  | [] => rfl
  | [_] => rfl
  | _ :: s' :: rest => by simp only [Workload.chainSystems, List.length_cons, chain_length (s' :: rest)]

theorem under_eval {w : Workload W ε} {cs : List (Cond W ε)} {ls : List (List (Cond W ε))} (h : Under w cs ls) :
    evalC w.runIf = allC cs ∧ ls.length = w.systems.length ∧
    ∀ (i : Nat) s own, w.systems[i]? = some s → ls[i]? = some own → evalC s.runIf = allC own := by
  induction h with
  | new l => exact ⟨rfl, rfl, fun i s own h => by simp [Workload.new] at h⟩
  | emptyTuple t => exact ⟨rfl, rfl, fun i s own h => by simp [Workload.emptyTuple] at h⟩
  | ofSystem t ho =>
    refine ⟨rfl, rfl, fun i s own hs hl => ?_⟩
    match i with
    | 0 => cases hs; cases hl; exact own_eval ho
    | _ + 1 => simp at hl
  | @withSystem w cs ls s own _ ho ih =>
    obtain ⟨h1, h2, h3⟩ := ih
    refine ⟨h1, by simp [Workload.withSystem, h2], fun i s' own' hs hl => ?_⟩
    have hs' : (w.systems ++ [{ s with uid := s.uid + w.systems.length }])[i]? = some s' := hs
    by_cases hi : i < w.systems.length
    · rw [List.getElem?_append_left hi] at hs'
      rw [List.getElem?_append_left (by omega)] at hl
      exact h3 i s' own' hs' hl
    · rw [List.getElem?_append_right (by omega)] at hs'
      rw [List.getElem?_append_right (by omega), h2] at hl
      have : i - w.systems.length = 0 := by
        have := get_lt' hl
        simp at this; omega
      rw [this] at hs' hl
      cases hs'; cases hl
      exact (own_eval ho : evalC s.runIf = _)
  | @merge w w' cs cs' ls ls' _ _ ih ih' =>
    obtain ⟨h1, h2, h3⟩ := ih
    obtain ⟨h1', h2', h3'⟩ := ih'
    obtain ⟨g1, g2, g3⟩ := C55_merge_systems w w'
    refine ⟨rfl, by rw [g1]; simp [h2, h2'], fun i s own hs hl => ?_⟩
    by_cases hi : i < w.systems.length
    · have hs0 := List.getElem?_eq_getElem (l := w.systems) hi
      obtain ⟨t, ht, hin⟩ := g2 i _ hs0
      rw [hs] at ht; cases ht
      rw [List.getElem?_append_left (by simp; omega), List.getElem?_map,
        List.getElem?_eq_getElem (l := ls) (by omega)] at hl
      cases hl
      rw [hin.cond, h1, h3 i _ _ hs0 (List.getElem?_eq_getElem (l := ls) (by omega)), ← allC_append]
    · have hlt := get_lt' hs
      rw [g1] at hlt
      obtain ⟨j, rfl⟩ : ∃ j, i = w.systems.length + j := ⟨i - w.systems.length, by omega⟩
      have hs0 := List.getElem?_eq_getElem (l := w'.systems) (i := j) (by omega)
      obtain ⟨t, ht, hin⟩ := g3 j _ hs0
      rw [hs] at ht; cases ht
      rw [List.getElem?_append_right (by simp; omega), List.length_map, h2, Nat.add_sub_cancel_left, List.getElem?_map,
        List.getElem?_eq_getElem (l := ls') (by omega)] at hl
      cases hl
      rw [hin.cond, h1', h3' j _ _ hs0 (List.getElem?_eq_getElem (l := ls') (by omega)), ← allC_append]
  | @append w w' cs cs' ls ls' _ _ ih ih' =>
    obtain ⟨h1, h2, h3⟩ := ih
    obtain ⟨_, h2', h3'⟩ := ih'
    refine ⟨h1, by simp [Workload.append, h2, h2'], fun i s own hs hl => ?_⟩
    have hs' : (w.systems ++ w'.systems.map fun s => { s with uid := s.uid + w.systems.length })[i]? = some s := hs
    by_cases hi : i < w.systems.length
    · rw [List.getElem?_append_left hi] at hs'
      rw [List.getElem?_append_left (by omega)] at hl
      exact h3 i s own hs' hl
    · rw [List.getElem?_append_right (by omega), List.getElem?_map, Option.map_eq_some_iff] at hs'
      rw [List.getElem?_append_right (by omega), h2] at hl
      obtain ⟨s0, hs0, rfl⟩ := hs'
      exact h3' _ s0 own hs0 hl
  | runIf c _ ih =>
    exact ⟨by rw [C59_workload_run_if, ih.1, allC_snoc], ih.2.1, ih.2.2⟩
  | skipIf c _ ih =>
    exact ⟨by rw [C59_workload_skip_if, ih.1, allC_snoc]; rfl, ih.2.1, ih.2.2⟩
  | withBarrier _ ih => exact ih
  | beforeAll _ _ ih | afterAll _ _ ih | rename _ _ ih | tag _ _ ih | ofFn _ _ ih => exact ih
  | intoSequential _ h ih =>
    unfold Workload.intoSequential at h
    split at h
    · cases h
      refine ⟨ih.1, by rw [ih.2.1]; exact (chain_length _).symm, fun i s own hs hl => ?_⟩
      obtain ⟨s0, hs0, hr⟩ := chain_get _ _ _ hs
      rw [hr]
      exact ih.2.2 i s0 own hs0 hl
    · cases h

/-- Every system and every workload that can be made is under some conditions. -/
theorem fresh_own {s : WSys W ε} (h : Fresh s) : ∃ cs, OwnConds s cs := by
  induction h with
  | ofFn h => exact ⟨_, .ofFn h⟩
  | runIf c _ ih => exact ⟨_, .runIf c ih.choose_spec⟩
  | skipIf c _ ih => exact ⟨_, .skipIf c ih.choose_spec⟩
  | beforeAll l _ _ ih => exact ⟨_, .beforeAll l ih.choose_spec⟩
  | afterAll l _ _ ih => exact ⟨_, .afterAll l ih.choose_spec⟩
  | displayName l _ _ ih => exact ⟨_, .displayName l ih.choose_spec⟩
  | tag l _ _ ih => exact ⟨_, .tag l ih.choose_spec⟩
  | requireIn l _ _ ih => exact ⟨_, .requireIn l ih.choose_spec⟩
  | requireBefore l _ _ ih => exact ⟨_, .requireBefore l ih.choose_spec⟩
  | requireAfter l _ _ ih => exact ⟨_, .requireAfter l ih.choose_spec⟩

/-- C59: all workloads that can be built are covered by `Under`. -/
theorem C59_under {w : Workload W ε} (h : Built w) : ∃ cs ls, Under w cs ls := by
  induction h with
  | new l _ => exact ⟨_, _, .new l⟩
  | ofSystem t h => exact ⟨_, _, .ofSystem t (fresh_own h).choose_spec⟩
  | emptyTuple t => exact ⟨_, _, .emptyTuple t⟩
  | withSystem _ hs ih => obtain ⟨cs, ls, h⟩ := ih; exact ⟨_, _, .withSystem h (fresh_own hs).choose_spec⟩
  | merge _ _ ih ih' =>
    obtain ⟨cs, ls, h⟩ := ih
    obtain ⟨cs', ls', h'⟩ := ih'
    exact ⟨_, _, .merge h h'⟩
  | append _ _ ih ih' =>
    obtain ⟨cs, ls, h⟩ := ih
    obtain ⟨cs', ls', h'⟩ := ih'
    exact ⟨_, _, .append h h'⟩
  | withBarrier _ ih => obtain ⟨cs, ls, h⟩ := ih; exact ⟨_, _, .withBarrier h⟩
  | runIf c _ ih => obtain ⟨cs, ls, h⟩ := ih; exact ⟨_, _, .runIf c h⟩
  | skipIf c _ ih => obtain ⟨cs, ls, h⟩ := ih; exact ⟨_, _, .skipIf c h⟩
  | beforeAll l _ _ ih => obtain ⟨cs, ls, h⟩ := ih; exact ⟨_, _, .beforeAll l h⟩
  | afterAll l _ _ ih => obtain ⟨cs, ls, h⟩ := ih; exact ⟨_, _, .afterAll l h⟩
  | rename l _ _ ih => obtain ⟨cs, ls, h⟩ := ih; exact ⟨_, _, .rename l h⟩
  | tag l _ _ ih => obtain ⟨cs, ls, h⟩ := ih; exact ⟨_, _, .tag l h⟩
  | ofFn t _ ih => obtain ⟨cs, ls, h⟩ := ih; exact ⟨_, _, .ofFn t h⟩
  | intoSequential _ hw ih => obtain ⟨cs, ls, h⟩ := ih; exact ⟨_, _, .intoSequential h hw⟩

/-- C59: a system of a workload, built in any way, runs exactly when its own conditions and those of the workloads around it hold, asked
from the outermost in. When they do, it runs in the world they leave. Otherwise the function is not called: whatever it is, the result
is the same, and if one of the conditions is false this is no error. -/
theorem C59_conditions {w : Workload W ε} {cs : List (Cond W ε)} {ls : List (List (Cond W ε))} (h : Under w cs ls)
    {i : Nat} {s : WSys W ε} (hs : w.systems[i]? = some s) :
    ∃ own, ls[i]? = some own ∧ ∀ (name : Label) (f : SysFn W ε) (x : W),
      (∀ x', HoldInTurn own x x' → (runJob ((name, f), s.runIf) x).1 = (f x').1 ∧
        ((runJob ((name, f), s.runIf) x).2 = .ok () ↔ (f x').2 = .ok ())) ∧
      ((∀ x', ¬ HoldInTurn own x x') → ∀ g, runJob ((name, f), s.runIf) x = runJob ((name, g), s.runIf) x) ∧
      (∀ x' (before after : List (Cond W ε)) c x1, own = before ++ c :: after → HoldInTurn before x x1 → c x1 = (x', .ok false) →
        runJob ((name, f), s.runIf) x = (x', .ok ())) := by
  obtain ⟨_, h2, h3⟩ := under_eval h
  have hi := get_lt' hs
  have hl := List.getElem?_eq_getElem (l := ls) (i := i) (by omega)
  have he := h3 i s _ hs hl
  refine ⟨_, hl, fun name f x => ⟨fun x' hx => ?_, fun hn g => ?_, fun x' before after c x1 ho hb hc => ?_⟩⟩
  · exact (C59_system ((name, f), s.runIf) x).2 x' (by rw [he]; exact allC_holds.2 hx)
  · unfold runJob
    simp only [he]
    rcases ha : allC _ x with ⟨x1, e | (_ | _)⟩
    · rfl
    · rfl
    · exact absurd (allC_holds.1 ha) (hn x1)
  · refine (C59_system ((name, f), s.runIf) x).1 x' ?_
    show evalC s.runIf x = _
    rw [he, ho, allC_append]
    unfold bothC
    rw [allC_holds.2 hb]
    simp only [allC]
    unfold bothC
    rw [hc]

/-- C59: the condition of the whole workload. When one of its conditions is false no system runs. -/
theorem C59_workload_conditions {w : Workload W ε} {cs : List (Cond W ε)} {ls : List (List (Cond W ε))} (h : Under w cs ls)
    (name : Label) (jobs : List (NamedJob W ε)) (x : W) :
    (∀ x', HoldInTurn cs x x' → runAll name w.runIf jobs x = runJobs jobs x') ∧
    (∀ x' (before after : List (Cond W ε)) c x1, cs = before ++ c :: after → HoldInTurn before x x1 → c x1 = (x', .ok false) →
      runAll name w.runIf jobs x = (x', .ok ())) := by
  obtain ⟨he, _⟩ := under_eval h
  refine ⟨fun x' hx => ?_, fun x' before after c x1 ho hb hc => ?_⟩
  · unfold runAll
    rw [he, allC_holds.2 hx]
  · unfold runAll
    have : evalC w.runIf x = (x', .ok false) := by
      rw [he, ho, allC_append]
      unfold bothC
      rw [allC_holds.2 hb]
      simp only [allC]
      unfold bothC
      rw [hc]
    rw [this]

/-- A workload in a workload, with conditions on the system, on the workload inside and on the one around. -/
def gatedDemo : Workload Nat Unit :=
  (((Workload.new (.str 1)).withSystem (Ex.sys 1 [])).merge
    (((Workload.new (.str 2)).withSystem ((Ex.sys 2 []).addRunIf fun w => (w, .ok (w % 2 == 0)))).addSkipIf
      fun w => (w, .ok (w == 7)))).addRunIf fun w => (w, .ok (w < 100))

example : Under gatedDemo [fun w => (w, .ok (w < 100))]
    [[], [notC fun w => (w, .ok (w == 7)), fun w => (w, .ok (w % 2 == 0))]] :=
  .runIf _ (.merge (.withSystem (.new _) (.ofFn (t := 1) (bs := []) (f := fun w => (w + 1, .ok ())) (tr := []) rfl))
    (.skipIf _ (.withSystem (.new _) (.runIf _ (.ofFn (t := 2) (bs := []) (f := fun w => (w + 2, .ok ())) (tr := []) rfl)))))

example : HoldInTurn (ε := Unit) [notC fun w => (w, .ok (w == 7)), fun w => (w, .ok (w % 2 == 0))] 4 4 :=
  .cons rfl (.cons rfl (.nil _))

/-- Finding: what is nested after `run_if` is not under that condition. `Workload::new(..).run_if(false).with_workload(inner)` runs the
systems of `inner`, and adding `run_if(false)` afterwards runs nothing. -/
theorem C59_nested_after_run_if_fails :
    let never : Cond Nat Unit := fun w => (w, .ok false)
    let inner : Workload Nat Unit := (Workload.new (.str 2)).withSystem (Ex.sys 5 [])
    let early := ((Workload.new (.str 1)).addRunIf never).merge inner
    let late := ((Workload.new (.str 1)).merge inner).addRunIf never
    Built early ∧ Built late
    ∧ (((Scheduler.empty : Scheduler Nat Unit).add early).1.run (.str 1) 100).toOption.map (·.1) = some 105
    ∧ (((Scheduler.empty : Scheduler Nat Unit).add late).1.run (.str 1) 100).toOption.map (·.1) = some 100 :=
  ⟨.merge (.runIf _ (.new _ trivial)) (.withSystem (.new _ trivial) (Ex.sys_fresh _ _ rfl)),
    .runIf _ (.merge (.new _ trivial) (.withSystem (.new _ trivial) (Ex.sys_fresh _ _ rfl))), rfl, rfl⟩

end Verif.Sched
