import Verif.Spec.SeqTuple
import Verif.Lemmas.Built

/-! # The workload of a sequential tuple -/
namespace Verif.Sched

variable {W ε : Type}

/-- The labels put on the systems of an element followed by element `next`. -/
def chained (w : Workload W ε) (next : Option (Workload W ε)) : List Label :=
  match next with
  | some w' => addLabel w.beforeAll (.sequential w'.name)
  | none => w.beforeAll

/-- The system `x` of element `w`, merged at `off`. -/
def placedAt (w : Workload W ε) (next : Option (Workload W ε)) (off : Nat) (x : WSys W ε) : WSys W ε :=
  { x with
    runIf := Workload.propagateRunIf x.runIf w.runIf
    tags := x.tags ++ (w.tags ++ [.sequential w.name])
    beforeAll := extendLabels x.beforeAll (chained w next)
    afterAll := extendLabels x.afterAll w.afterAll
    reqBefore := extendLabels x.reqBefore w.reqBefore
    reqAfter := extendLabels x.reqAfter w.reqAfter
    uid := x.uid + off }

/-- Nothing left to propagate. -/
structure Clean (w : Workload W ε) : Prop where
  runIf : w.runIf = none
  tags : w.tags = []
  beforeAll : w.beforeAll = []
  afterAll : w.afterAll = []
  reqBefore : w.reqBefore = []
  reqAfter : w.reqAfter = []

theorem propagate_clean (w : Workload W ε) : Clean w.propagate := ⟨rfl, rfl, rfl, rfl, rfl, rfl⟩

theorem Clean.systems {w : Workload W ε} (h : Clean w) : w.propagate.systems = w.systems := by
  show w.systems.map _ = w.systems
  rw [h.runIf, h.tags, h.beforeAll, h.afterAll, h.reqBefore, h.reqAfter]
  conv => rhs; rw [← List.map_id w.systems]
  apply List.map_congr_left
  intro s _
  have : Workload.propagateRunIf s.runIf none = s.runIf := by cases s.runIf <;> rfl
  simp [extendLabels, this]

theorem seq_merge_clean (acc w : Workload W ε) : Clean (acc.merge w) := ⟨rfl, rfl, rfl, rfl, rfl, rfl⟩

theorem seq_merge_systems {acc : Workload W ε} (h : acc.propagate.systems = acc.systems) (w : Workload W ε) :
    (acc.merge w).systems = acc.systems ++ w.propagate.systems.map fun s => { s with uid := s.uid + acc.systems.length } := by
  show acc.propagate.systems ++ _ = _
  rw [h]

/-- The systems an element adds. -/
theorem seq_merge_elem {acc : Workload W ε} (h : acc.propagate.systems = acc.systems) (w : Workload W ε) (next : Option (Workload W ε))
    (w' : Workload W ε) (hw : w' = { (w.addTag (.sequential w.name)) with beforeAll := chained w next }) :
    (acc.merge w').systems = acc.systems ++ w.systems.map (placedAt w next acc.systems.length) := by
  rw [seq_merge_systems h]
  congr 1
  subst hw
  show (w.systems.map _).map _ = _
  rw [List.map_map]
  rfl

theorem loop_systems (ws : List (Workload W ε)) : ∀ {acc : Workload W ε}, acc.propagate.systems = acc.systems →
    (∀ (k : Nat), k < acc.systems.length → (Workload.sequentialLoop acc ws).systems[k]? = acc.systems[k]?)
    ∧ (Workload.sequentialLoop acc ws).systems.length = acc.systems.length + elemStart ws ws.length
    ∧ ∀ (i j : Nat) w x, ws[i]? = some w → w.systems[j]? = some x →
      (Workload.sequentialLoop acc ws).systems[acc.systems.length + elemStart ws i + j]? =
        some (placedAt w ws[i + 1]? (acc.systems.length + elemStart ws i) x) := by
  match ws with
  | [] =>
    intro acc _
    exact ⟨fun _ _ => rfl, rfl, fun i j w x hi => by cases hi⟩
  | [e] =>
    intro acc h
    have hm : (Workload.sequentialLoop acc [e]).systems = _ :=
      seq_merge_elem h e none (e.addTag (.sequential e.name)) rfl
    refine ⟨?_, ?_, ?_⟩
    · intro k hk
      rw [hm, List.getElem?_append_left hk]
    · rw [hm, List.length_append, List.length_map]
      rfl
    · intro i j w x hi hj
      cases i with
      | zero =>
        cases hi
        rw [hm, List.getElem?_append_right (by show acc.systems.length ≤ acc.systems.length + 0 + j; omega)]
        have : acc.systems.length + elemStart [e] 0 + j - acc.systems.length = j := by
          show acc.systems.length + 0 + j - acc.systems.length = j; omega
        rw [this, List.getElem?_map, hj]
        rfl
      | succ i => cases hi
  | e :: e' :: rest =>
    intro acc h
    have hm := seq_merge_elem h e (some e') ((e.addTag (.sequential e.name)).addBeforeAll (.sequential e'.name)) rfl
    obtain ⟨l1, l2, l3⟩ := loop_systems (e' :: rest)
      (Clean.systems (seq_merge_clean acc ((e.addTag (.sequential e.name)).addBeforeAll (.sequential e'.name))))
    have hlen : (acc.merge ((e.addTag (.sequential e.name)).addBeforeAll (.sequential e'.name))).systems.length
        = acc.systems.length + e.systems.length := by
      rw [hm, List.length_append, List.length_map]
    have hloop : Workload.sequentialLoop acc (e :: e' :: rest) = Workload.sequentialLoop
      (acc.merge ((e.addTag (.sequential e.name)).addBeforeAll (.sequential e'.name))) (e' :: rest) := rfl
    have hst : ∀ i, elemStart (e :: e' :: rest) (i + 1) = e.systems.length + elemStart (e' :: rest) i := by
      intro i
      simp [elemStart]
    rw [hlen] at l1 l2 l3
    refine ⟨?_, ?_, ?_⟩
    · intro k hk
      rw [hloop, l1 k (by omega), hm, List.getElem?_append_left hk]
    · have h1 : elemStart (e :: e' :: rest) (e :: e' :: rest).length = _ := hst (rest.length + 1)
      rw [hloop, l2, h1, List.length_cons]
      omega
    · intro i j w x hi hj
      cases i with
      | zero =>
        cases hi
        have hjl : j < e.systems.length := (List.getElem?_eq_some_iff.mp hj).1
        have h0 : elemStart (e :: e' :: rest) 0 = 0 := rfl
        rw [h0, hloop, l1 _ (by omega), hm, List.getElem?_append_right (by omega)]
        have : acc.systems.length + 0 + j - acc.systems.length = j := by omega
        rw [this, List.getElem?_map, hj]
        rfl
      | succ i =>
        have hi' : (e' :: rest)[i]? = some w := hi
        have := l3 i j w x hi' hj
        rw [hloop, hst, ← Nat.add_assoc, this]
        rfl

theorem emptyTuple_propagate (t : Nat) : (Workload.emptyTuple t : Workload W ε).propagate.systems
    = (Workload.emptyTuple t : Workload W ε).systems := rfl

theorem loop_built (ws : List (Workload W ε)) (h : ∀ w ∈ ws, Built w) : ∀ {acc : Workload W ε}, Built acc →
    Built (Workload.sequentialLoop acc ws) := by
  match ws with
  | [] => intro acc ha; exact ha
  | [e] =>
    intro acc ha
    exact .merge ha (.tag _ trivial (h e (by simp)))
  | e :: e' :: rest =>
    intro acc ha
    exact loop_built (e' :: rest) (fun w hw => h w (List.mem_cons_of_mem _ hw))
      (.merge ha (.beforeAll _ trivial (.tag _ trivial (h e (by simp)))))

theorem loop_barriers (ws : List (Workload W ε)) (h : ∀ w ∈ ws, w.barriers = []) : ∀ {acc : Workload W ε}, acc.barriers = [] →
    (Workload.sequentialLoop acc ws).barriers = [] := by
  match ws with
  | [] => intro acc ha; exact ha
  | [e] =>
    intro acc ha
    show acc.barriers ++ (e.barriers).map _ = []
    rw [ha, h e (by simp)]; rfl
  | e :: e' :: rest =>
    intro acc ha
    refine loop_barriers (e' :: rest) (fun w hw => h w (List.mem_cons_of_mem _ hw)) ?_
    show acc.barriers ++ (e.barriers).map _ = []
    rw [ha, h e (by simp)]; rfl

theorem loop_types (ws : List (Workload W ε)) : ∀ {acc : Workload W ε}, acc.propagate.systems = acc.systems →
    (Workload.sequentialLoop acc ws).systems.map (·.typeId) = acc.systems.map (·.typeId) ++ (ws.flatMap (·.systems)).map (·.typeId) := by
  have hpl : ∀ (e : Workload W ε) next k, (e.systems.map (placedAt e next k)).map (·.typeId) = e.systems.map (·.typeId) := by
    intro e next k
    rw [List.map_map]; rfl
  match ws with
  | [] => intro acc _; simp [Workload.sequentialLoop]
  | [e] =>
    intro acc h
    have hm : (Workload.sequentialLoop acc [e]).systems = _ :=
      seq_merge_elem h e none (e.addTag (.sequential e.name)) rfl
    rw [hm, List.map_append, hpl]
    simp
  | e :: e' :: rest =>
    intro acc h
    have hm := seq_merge_elem h e (some e') ((e.addTag (.sequential e.name)).addBeforeAll (.sequential e'.name)) rfl
    have hl := loop_types (e' :: rest)
      (Clean.systems (seq_merge_clean acc ((e.addTag (.sequential e.name)).addBeforeAll (.sequential e'.name))))
    have hloop : Workload.sequentialLoop acc (e :: e' :: rest) = Workload.sequentialLoop
      (acc.merge ((e.addTag (.sequential e.name)).addBeforeAll (.sequential e'.name))) (e' :: rest) := rfl
    rw [hloop, hl, hm, List.map_append, hpl]
    simp

end Verif.Sched
