import Verif.Lemmas.Realise

/-!
# C55, C58 and the building half of C59: systems, nesting, conditions
-/
namespace Verif.Sched

variable {W ε : Type}

/-! ## C58: validity of the views of a system -/

/-- The views a system may ask for together. -/
structure ValidViews (bs : List TypeInfo) : Prop where
  /-- all the storages exclusively: nothing else -/
  alone : ∀ t ∈ bs, t.storage = allStorages → t.exclusive = true → bs.length = 1
  /-- two views of one storage: both shared -/
  shared : bs.Pairwise fun a b => a.storage = b.storage → a.exclusive = false ∧ b.exclusive = false

theorem pairCheck_none {a b : TypeInfo} :
    pairCheck a b = none ↔ (a.storage = b.storage → a.exclusive = false ∧ b.exclusive = false) := by
  unfold pairCheck
  split
  · rename_i h
    cases a.exclusive <;> cases b.exclusive <;> simp [h]
  · rename_i h
    simp [h]

theorem pairLoop_none : ∀ {bs : List TypeInfo}, pairLoop bs = none ↔
    bs.Pairwise fun a b => a.storage = b.storage → a.exclusive = false ∧ b.exclusive = false
  | [] => by simp [pairLoop]
  | a :: rest => by
    unfold pairLoop
    rw [List.pairwise_cons, ← pairLoop_none (bs := rest)]
    cases h : rest.findSome? (pairCheck a) with
    | some e =>
      simp only [reduceCtorEq, false_iff]
      rintro ⟨h1, _⟩
      obtain ⟨b, hb, he⟩ := List.exists_of_findSome?_eq_some h
      rw [pairCheck_none.mpr (h1 b hb)] at he
      cases he
    | none =>
      have := List.findSome?_eq_none_iff.mp h
      constructor
      · intro h2
        exact ⟨fun b hb => pairCheck_none.mp (this b hb), h2⟩
      · exact fun h => h.2

theorem pairLoop_some : ∀ {bs : List TypeInfo} {e}, pairLoop bs = some e →
    ∃ (i j : Nat) (a b : TypeInfo), i < j ∧ bs[i]? = some a ∧ bs[j]? = some b ∧ pairCheck a b = some e
  | a :: rest, e, h => by
    unfold pairLoop at h
    cases hf : rest.findSome? (pairCheck a) with
    | some e' =>
      rw [hf] at h
      cases h
      obtain ⟨b, hb, he⟩ := List.exists_of_findSome?_eq_some hf
      obtain ⟨j, hj⟩ := List.mem_iff_getElem?.mp hb
      exact ⟨0, j + 1, a, b, Nat.succ_pos _, rfl, hj, he⟩
    | none =>
      rw [hf] at h
      obtain ⟨i, j, x, y, hij, hx, hy, he⟩ := pairLoop_some h
      exact ⟨i + 1, j + 1, x, y, Nat.succ_lt_succ hij, hx, hy, he⟩

theorem all_iff (bs : List TypeInfo) :
    (bs.any (fun t => decide (t.storage = allStorages) && t.exclusive) && decide (1 < bs.length)) = true ↔
      (∃ t ∈ bs, t.storage = allStorages ∧ t.exclusive = true) ∧ 1 < bs.length := by
  simp

/-- A function becomes a system exactly when its views are valid. -/
theorem C58_valid_iff (t : Nat) (bs : List TypeInfo) (f : SysFn W ε) :
    (∃ s, WSys.ofFn t bs f = .ok s) ↔ ValidViews bs := by
  have hc : (∃ s, WSys.ofFn t bs f = .ok s) ↔ checkBorrows bs = .ok () := by
    unfold WSys.ofFn
    cases checkBorrows bs with
    | ok u => simp
    | error e => simp
  rw [hc]
  unfold checkBorrows
  split
  · rename_i h
    obtain ⟨⟨x, hx, h1, h2⟩, h3⟩ := (all_iff bs).mp h
    constructor
    · intro h; cases h
    · intro hv
      have := hv.alone x hx h1 h2
      omega
  · rename_i h
    have hno : ¬ ((∃ t ∈ bs, t.storage = allStorages ∧ t.exclusive = true) ∧ 1 < bs.length) := fun h' => h ((all_iff bs).mpr h')
    cases hp : pairLoop bs with
    | some e =>
      constructor
      · intro h; cases h
      · intro hv
        rw [pairLoop_none.mpr hv.shared] at hp
        cases hp
    | none =>
      refine ⟨fun _ => ⟨?_, pairLoop_none.mp hp⟩, fun _ => rfl⟩
      intro x hx h1 h2
      have : 0 < bs.length := List.length_pos_of_mem hx
      apply Classical.byContradiction
      intro h3
      exact hno ⟨⟨x, hx, h1, h2⟩, by omega⟩

/-- The error says what is wrong. -/
theorem C58_error (t : Nat) (bs : List TypeInfo) (f : SysFn W ε) (e : InvalidSystem) (h : WSys.ofFn t bs f = .error e) :
    match e with
    | .allStorages => 1 < bs.length ∧ ∃ x ∈ bs, x.storage = allStorages ∧ x.exclusive = true
    | .multipleViewsMut => ∃ (i j : Nat) (a b : TypeInfo), i < j ∧ bs[i]? = some a ∧ bs[j]? = some b
        ∧ a.storage = b.storage ∧ a.exclusive = true ∧ b.exclusive = true
    | .multipleViews => ∃ (i j : Nat) (a b : TypeInfo), i < j ∧ bs[i]? = some a ∧ bs[j]? = some b
        ∧ a.storage = b.storage ∧ a.exclusive ≠ b.exclusive := by
  have hc : checkBorrows bs = .error e := by
    unfold WSys.ofFn at h
    cases hb : checkBorrows bs with
    | ok u => rw [hb] at h; cases h
    | error e' => rw [hb] at h; cases h; rfl
  unfold checkBorrows at hc
  split at hc
  · rename_i hall
    cases hc
    obtain ⟨h1, h2⟩ := (all_iff bs).mp hall
    exact ⟨h2, h1⟩
  · cases hp : pairLoop bs with
    | none => rw [hp] at hc; cases hc
    | some e' =>
      rw [hp] at hc
      cases hc
      obtain ⟨i, j, a, b, hij, hi, hj, he⟩ := pairLoop_some hp
      unfold pairCheck at he
      split at he
      · rename_i hs
        cases ha : a.exclusive <;> cases hb : b.exclusive <;> rw [ha, hb] at he <;> cases he
        · exact ⟨i, j, a, b, hij, hi, hj, hs, by simp [ha, hb]⟩
        · exact ⟨i, j, a, b, hij, hi, hj, hs, by simp [ha, hb]⟩
        · exact ⟨i, j, a, b, hij, hi, hj, hs, ha, hb⟩
      · cases he

/-- Every system of a workload has valid views. -/
theorem C58_workload {w : Workload W ε} (hw : Built w) {i : Nat} {s : WSys W ε} (hs : w.systems[i]? = some s) :
    ValidViews s.borrows := by
  have h := (hw.wf.sys i s hs).2.valid
  refine (C58_valid_iff 0 s.borrows (fun w : W => (w, (.ok () : Except ε Unit)))).mp ?_
  unfold WSys.ofFn
  rw [h]
  exact ⟨_, rfl⟩

example : ValidViews [Ex.view 3, Ex.viewMut 4, Ex.view 3] :=
  (C58_valid_iff 0 _ (fun w : Nat => (w, (.ok () : Except Unit Unit)))).mp ⟨_, rfl⟩

/-- A `run_if` function that is rejected has invalid views. Missing: the converse, see `C58_run_if_fails`. -/
theorem C58_run_if_partial (bs : List TypeInfo) (e : InvalidSystem) (h : checkRunIfBorrows bs = .error e) :
    ¬ ValidViews bs := by
  unfold checkRunIfBorrows at h
  split at h
  · rename_i h'
    obtain ⟨⟨x, hx, h1, h2⟩, h3⟩ := (all_iff bs).mp h'
    intro hv
    have := hv.alone x hx h1 h2
    omega
  · dsimp only at h
    generalize bs.length / 2 + (if bs.length % 2 ≠ 0 then 1 else 0) = mid at h
    cases hf : (bs.take mid).findSome? (fun a => (bs.drop mid).findSome? (pairCheck a)) with
    | none => rw [hf] at h; cases h
    | some e' =>
      obtain ⟨a, ha, he⟩ := List.exists_of_findSome?_eq_some hf
      obtain ⟨b, hb, he⟩ := List.exists_of_findSome?_eq_some he
      intro hv
      have hs := hv.shared
      rw [← List.take_append_drop mid bs, List.pairwise_append] at hs
      rw [pairCheck_none.mpr (hs.2.2 a ha b hb)] at he
      cases he

/-- Finding: the check of the views of a `run_if` function only compares the first half with the second half: two exclusive
views of one storage in the same half are accepted. -/
theorem C58_run_if_fails : checkRunIfBorrows [Ex.viewMut 5, Ex.viewMut 5, Ex.view 6, Ex.view 7] = .ok ()
    ∧ ¬ ValidViews [Ex.viewMut 5, Ex.viewMut 5, Ex.view 6, Ex.view 7] := by
  refine ⟨rfl, fun h => ?_⟩
  have := (List.pairwise_cons.mp h.shared).1 (Ex.viewMut 5) (by simp) rfl
  cases this.1

/-! ## C59: conditions -/

/-- A system with two conditions runs when both hold. -/
theorem C59_run_if (s : WSys W ε) (c : Cond W ε) : evalC (s.addRunIf c).runIf = bothC (evalC s.runIf) c := by
  funext w
  unfold WSys.addRunIf andThen evalC bothC
  cases s.runIf with
  | none => rfl
  | some p =>
    show Cond.and p c w = _
    unfold Cond.and
    dsimp only
    rcases p w with ⟨w', e | (_ | _)⟩ <;> rfl

/-- `skip_if` is `run_if` of the negation. -/
theorem C59_skip_if (s : WSys W ε) (c : Cond W ε) : evalC (s.addSkipIf c).runIf
    = bothC (evalC s.runIf) (fun w => ((c w).1, (c w).2.map (!·))) := by
  unfold WSys.addSkipIf
  rw [C59_run_if]
  congr 1
  funext w
  unfold Cond.not
  rcases c w with ⟨w', e | b⟩ <;> rfl

/-- The same for workloads. -/
theorem C59_workload_run_if (w : Workload W ε) (c : Cond W ε) :
    evalC (w.addRunIf c).runIf = bothC (evalC w.runIf) c := by
  funext x
  unfold Workload.addRunIf andThen evalC bothC
  cases w.runIf with
  | none => rfl
  | some p =>
    show Cond.and p c x = _
    unfold Cond.and
    dsimp only
    rcases p x with ⟨w', e | (_ | _)⟩ <;> rfl

theorem C59_workload_skip_if (w : Workload W ε) (c : Cond W ε) : evalC (w.addSkipIf c).runIf
    = bothC (evalC w.runIf) (fun w => ((c w).1, (c w).2.map (!·))) := by
  unfold Workload.addSkipIf
  rw [C59_workload_run_if]
  congr 1
  funext w
  unfold Cond.not
  rcases c w with ⟨w', e | b⟩ <;> rfl

/-! ## C55: merging and appending -/

/-- `t` is system `s` once its workload `w` is nested in another one: what was said about the workload is said about the
system, and nothing else changes. -/
structure Inherits (w : Workload W ε) (s t : WSys W ε) : Prop where
  same : t.typeId = s.typeId ∧ t.name = s.name ∧ t.fn = s.fn ∧ t.borrows = s.borrows ∧ t.reqIn = s.reqIn
  tags : ∀ l, l ∈ t.tags ↔ l ∈ s.tags ∨ l ∈ w.tags
  beforeAll : ∀ l, l ∈ t.beforeAll ↔ l ∈ s.beforeAll ∨ l ∈ w.beforeAll
  afterAll : ∀ l, l ∈ t.afterAll ↔ l ∈ s.afterAll ∨ l ∈ w.afterAll
  reqBefore : ∀ l, l ∈ t.reqBefore ↔ l ∈ s.reqBefore ∨ l ∈ w.reqBefore
  reqAfter : ∀ l, l ∈ t.reqAfter ↔ l ∈ s.reqAfter ∨ l ∈ w.reqAfter
  cond : evalC t.runIf = bothC (evalC w.runIf) (evalC s.runIf)

theorem propagateRunIf_eval (s w : Option (Cond W ε)) :
    evalC (Workload.propagateRunIf s w) = bothC (evalC w) (evalC s) := by
  funext x
  unfold Workload.propagateRunIf evalC bothC
  cases s with
  | none =>
    cases w with
    | none => rfl
    | some c =>
      show c x = _
      dsimp only
      rcases h : c x with ⟨w', e | (_ | _)⟩ <;> rfl
  | some c =>
    cases w with
    | none => rfl
    | some d =>
      show Cond.and d c x = _
      unfold Cond.and
      dsimp only
      rcases d x with ⟨w', e | (_ | _)⟩ <;> rfl

theorem propagate_get (w : Workload W ε) {i : Nat} {s : WSys W ε} (hs : w.systems[i]? = some s) :
    ∃ t, w.propagate.systems[i]? = some t ∧ Inherits w s t := by
  have e : w.propagate.systems[i]? = some
      { s with
        runIf := Workload.propagateRunIf s.runIf w.runIf
        tags := s.tags ++ w.tags
        beforeAll := extendLabels s.beforeAll w.beforeAll
        afterAll := extendLabels s.afterAll w.afterAll
        reqBefore := extendLabels s.reqBefore w.reqBefore
        reqAfter := extendLabels s.reqAfter w.reqAfter } := by
    show (w.systems.map _)[i]? = _
    rw [List.getElem?_map, hs]
    rfl
  refine ⟨_, e, ?_⟩
  · refine ⟨⟨rfl, rfl, rfl, rfl, rfl⟩, ?_, ?_, ?_, ?_, ?_, ?_⟩
    · intro l; exact List.mem_append
    · intro l; exact mem_extendLabels _ _ _
    · intro l; exact mem_extendLabels _ _ _
    · intro l; exact mem_extendLabels _ _ _
    · intro l; exact mem_extendLabels _ _ _
    · exact propagateRunIf_eval _ _

theorem propagate_length (w : Workload W ε) : w.propagate.systems.length = w.systems.length := by
  show (w.systems.map _).length = _
  simp

theorem merge_systems (w w' : Workload W ε) : (w.merge w').systems = w.propagate.systems ++
    w'.propagate.systems.map fun s => { s with uid := s.uid + w.systems.length } := by
  show w.propagate.systems ++ w'.propagate.systems.map (fun s => { s with uid := s.uid + w.propagate.systems.length }) = _
  rw [propagate_length]

/-- `merge`: the systems of both, in order, each with what was said about its own workload. -/
theorem C55_merge_systems (w w' : Workload W ε) :
    (w.merge w').systems.length = w.systems.length + w'.systems.length
    ∧ (∀ (i : Nat) s, w.systems[i]? = some s → ∃ t, (w.merge w').systems[i]? = some t ∧ Inherits w s t)
    ∧ (∀ (i : Nat) s, w'.systems[i]? = some s →
        ∃ t, (w.merge w').systems[w.systems.length + i]? = some t ∧ Inherits w' s t) := by
  rw [merge_systems]
  refine ⟨?_, ?_, ?_⟩
  · rw [List.length_append, List.length_map, propagate_length, propagate_length]
  · intro i s hs
    obtain ⟨t, ht, hi⟩ := propagate_get w hs
    refine ⟨t, ?_, hi⟩
    rw [List.getElem?_append_left (List.getElem?_eq_some_iff.mp ht).1]
    exact ht
  · intro i s hs
    obtain ⟨t, ht, hi⟩ := propagate_get w' hs
    refine ⟨{ t with uid := t.uid + w.systems.length }, ?_, ?_⟩
    · rw [List.getElem?_append_right (by rw [propagate_length]; omega), propagate_length, List.getElem?_map]
      rw [show w.systems.length + i - w.systems.length = i from by omega, ht]
      rfl
    · exact ⟨hi.same, hi.tags, hi.beforeAll, hi.afterAll, hi.reqBefore, hi.reqAfter, hi.cond⟩

/-- After `merge` nothing is left at the level of the workload that a later nesting would apply again or to other systems. -/
theorem C55_merge_spent (w w' : Workload W ε) :
    (w.merge w').tags = [] ∧ (w.merge w').beforeAll = [] ∧ (w.merge w').afterAll = [] ∧ (w.merge w').reqBefore = []
    ∧ (w.merge w').reqAfter = [] ∧ (w.merge w').runIf = none ∧ (w.merge w').name = w.name := by
  refine ⟨rfl, rfl, rfl, rfl, rfl, rfl, rfl⟩

/-- `merge` keeps the barriers where they were. -/
theorem C55_merge_barriers (w w' : Workload W ε) (k : Nat) :
    k ∈ (w.merge w').barriers ↔ k ∈ w.barriers ∨ ∃ j ∈ w'.barriers, k = w.systems.length + j := by
  show k ∈ w.barriers ++ w'.barriers.map (· + w.propagate.systems.length) ↔ _
  rw [propagate_length, List.mem_append, List.mem_map]
  constructor
  · rintro (h | ⟨j, h1, h2⟩)
    · exact .inl h
    · exact .inr ⟨j, h1, by omega⟩
  · rintro (h | ⟨j, h1, h2⟩)
    · exact .inl h
    · exact .inr ⟨j, h1, by omega⟩

/-- Explicit constraints inside the first workload are constraints of the merge, on the same systems. -/
theorem C55_merge_keeps_left (w w' : Workload W ε) {a b : Nat} (h : Explicit w a b) : Explicit (w.merge w') a b := by
  obtain ⟨h0, h1, _⟩ := C55_merge_systems w w'
  cases h with
  | beforeAll hx hy hne hl ht =>
    obtain ⟨x, hx', ix⟩ := h1 a _ hx
    obtain ⟨y, hy', iy⟩ := h1 b _ hy
    exact .beforeAll hx' hy' hne ((ix.beforeAll _).mpr (.inl hl)) ((iy.tags _).mpr (.inl ht))
  | afterAll hx hy hne hl ht =>
    obtain ⟨x, hx', ix⟩ := h1 a _ hx
    obtain ⟨y, hy', iy⟩ := h1 b _ hy
    exact .afterAll hx' hy' hne ((iy.afterAll _).mpr (.inl hl)) ((ix.tags _).mpr (.inl ht))
  | barrier hk hak hkb hb =>
    refine .barrier ((C55_merge_barriers w w' _).mpr (.inl hk)) hak hkb ?_
    omega

/-- The same for the second workload, whose systems come after. -/
theorem C55_merge_keeps_right (w w' : Workload W ε) {a b : Nat} (h : Explicit w' a b) :
    Explicit (w.merge w') (w.systems.length + a) (w.systems.length + b) := by
  obtain ⟨h0, _, h1⟩ := C55_merge_systems w w'
  cases h with
  | beforeAll hx hy hne hl ht =>
    obtain ⟨x, hx', ix⟩ := h1 a _ hx
    obtain ⟨y, hy', iy⟩ := h1 b _ hy
    exact .beforeAll hx' hy' (by omega) ((ix.beforeAll _).mpr (.inl hl)) ((iy.tags _).mpr (.inl ht))
  | afterAll hx hy hne hl ht =>
    obtain ⟨x, hx', ix⟩ := h1 a _ hx
    obtain ⟨y, hy', iy⟩ := h1 b _ hy
    exact .afterAll hx' hy' (by omega) ((iy.afterAll _).mpr (.inl hl)) ((ix.tags _).mpr (.inl ht))
  | barrier hk hak hkb hb =>
    refine .barrier ((C55_merge_barriers w w' _).mpr (.inr ⟨_, hk, rfl⟩)) (by omega) (by omega) ?_
    omega

/-- `append`: the systems of the other workload come after, unchanged; nothing else of the other workload is kept. -/
theorem C55_append (w w' : Workload W ε) :
    (∀ (i : Nat) s, w.systems[i]? = some s → (w.append w').1.systems[i]? = some s)
    ∧ (∀ (i : Nat) s, w'.systems[i]? = some s →
        (w.append w').1.systems[w.systems.length + i]? = some { s with uid := s.uid + w.systems.length })
    ∧ (w.append w').1.systems.length = w.systems.length + w'.systems.length
    ∧ (w.append w').1.name = w.name ∧ (w.append w').1.tags = w.tags ∧ (w.append w').1.runIf = w.runIf
    ∧ (w.append w').1.barriers = w.barriers ∧ (w.append w').2.systems = [] := by
  have e : (w.append w').1.systems = w.systems ++
    w'.systems.map fun s => { s with uid := s.uid + w.systems.length } := rfl
  refine ⟨?_, ?_, ?_, rfl, rfl, rfl, rfl, rfl⟩
  · intro i s hs
    rw [e, List.getElem?_append_left (List.getElem?_eq_some_iff.mp hs).1]
    exact hs
  · intro i s hs
    rw [e, List.getElem?_append_right (by omega), show w.systems.length + i - w.systems.length = i from by omega,
      List.getElem?_map, hs]
    rfl
  · rw [e, List.length_append, List.length_map]

/-- A tuple of workloads is nested element by element. -/
theorem C55_tuple (t : Nat) (ws : List (Workload W ε)) (w : Workload W ε) :
    Workload.ofTuple t (ws ++ [w]) = (Workload.ofTuple t ws).merge w := by
  unfold Workload.ofTuple
  rw [List.foldl_append]
  rfl

/-- Two systems with a barrier between them, the second workload of the examples. -/
def barrierDemo : Workload Nat Unit :=
  (((Workload.new (.str 2)).withSystem (Ex.sys 5 [])).withBarrier).withSystem (Ex.sys 6 [])

example : Explicit (Ex.demo.merge barrierDemo) 4 5 :=
  C55_merge_keeps_right Ex.demo barrierDemo (a := 0) (b := 1) (.barrier (k := 1) (by decide) (by decide) (by decide) (by decide))

/-- Finding: `append` drops the barriers of the other workload: system 5 had to be before system 6, and they are in one batch
after `append`. -/
theorem C55_append_barriers_fails : Explicit barrierDemo 0 1 ∧
    (createWorkload Scheduler.empty ((Workload.new (.str 1)).append barrierDemo).1).toOption.map (fun c => c.batches.parallel)
      = some [(none, [0, 1])] :=
  ⟨.barrier (k := 1) (by decide) (by decide) (by decide) (by decide), rfl⟩

/-- Finding: `append` drops the condition of the other workload. -/
theorem C55_append_run_if_fails (w w' : Workload W ε) (c : Cond W ε) :
    (w.append (w'.addRunIf c)).1 = (w.append w').1 := rfl

end Verif.Sched
