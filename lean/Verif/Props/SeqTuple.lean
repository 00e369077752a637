import Verif.Lemmas.SeqTuple
import Verif.Props.Scheduler

/-!
# C97: the elements of a sequential tuple run one after the other
-/
namespace Verif.Sched

variable {W ε : Type}

theorem loop_name (ws : List (Workload W ε)) : ∀ (acc : Workload W ε), (Workload.sequentialLoop acc ws).name = acc.name := by
  induction ws with
  | nil => intro acc; rfl
  | cons u l ih =>
    intro acc
    cases l with
    | nil => rfl
    | cons v l => exact ih _

/-- The workload of a sequential tuple. -/
theorem sequential_ok {t : Nat} {ws : List (Workload W ε)} {w : Workload W ε} (h : Workload.ofTupleSequential t ws = .ok w) :
    w = Workload.sequentialLoop (Workload.emptyTuple t) ws := by
  unfold Workload.ofTupleSequential at h
  dsimp only at h
  split at h
  · cases h; rfl
  · cases h

theorem sequential_built {t : Nat} {ws : List (Workload W ε)} {w : Workload W ε} (hb : ∀ e ∈ ws, Built e)
    (h : Workload.ofTupleSequential t ws = .ok w) : Built w := by
  rw [sequential_ok h]
  exact loop_built ws hb (.emptyTuple t)

/-- The systems are those of the elements, in the order of the elements: same functions, same views. -/
theorem C97_systems {t : Nat} {ws : List (Workload W ε)} {w : Workload W ε} (h : Workload.ofTupleSequential t ws = .ok w) :
    w.systems.length = (ws.map (·.systems.length)).sum
    ∧ ∀ (i j : Nat) e x, ws[i]? = some e → e.systems[j]? = some x →
      ∃ y, w.systems[elemStart ws i + j]? = some y ∧ y.typeId = x.typeId ∧ y.fn = x.fn ∧ y.borrows = x.borrows
        ∧ y.tracking = x.tracking ∧ y.runIf = Workload.propagateRunIf x.runIf e.runIf := by
  obtain ⟨_, h2, h3⟩ := loop_systems ws (emptyTuple_propagate t)
  rw [sequential_ok h]
  have h0 : (Workload.emptyTuple t : Workload W ε).systems.length = 0 := rfl
  rw [h0] at h2 h3
  refine ⟨?_, ?_⟩
  · rw [h2, Nat.zero_add]
    unfold elemStart
    rw [List.take_length]
  · intro i j e x hi hj
    have := h3 i j e x hi hj
    rw [Nat.zero_add] at this
    exact ⟨_, this, rfl, rfl, rfl, rfl, rfl⟩

theorem elemStart_succ {ws : List (Workload W ε)} {i : Nat} {e : Workload W ε} (h : ws[i]? = some e) :
    elemStart ws (i + 1) = elemStart ws i + e.systems.length := by
  unfold elemStart
  rw [List.take_add_one, h]
  simp

theorem fromElem_get {t : Nat} {ws : List (Workload W ε)} {w : Workload W ε} (h : Workload.ofTupleSequential t ws = .ok w)
    {a i : Nat} (ha : FromElem ws a i) : ∃ e x, ws[i]? = some e ∧
      w.systems[a]? = some (placedAt e ws[i + 1]? (elemStart ws i) x) := by
  obtain ⟨e, he, h1, h2⟩ := ha
  obtain ⟨_, _, h3⟩ := loop_systems ws (emptyTuple_propagate t)
  have hj : a - elemStart ws i < e.systems.length := by omega
  have := h3 i (a - elemStart ws i) e _ he (List.getElem?_eq_getElem hj)
  have h0 : (Workload.emptyTuple t : Workload W ε).systems.length = 0 := rfl
  rw [h0, Nat.zero_add, ← sequential_ok h, show elemStart ws i + (a - elemStart ws i) = a by omega] at this
  exact ⟨e, _, he, this⟩

/-- One element and the next. -/
theorem next_explicit {t : Nat} {ws : List (Workload W ε)} {w : Workload W ε} (h : Workload.ofTupleSequential t ws = .ok w)
    {a b i : Nat} (ha : FromElem ws a i) (hb : FromElem ws b (i + 1)) : Explicit w a b := by
  obtain ⟨e, x, he, hx⟩ := fromElem_get h ha
  obtain ⟨e', y, he', hy⟩ := fromElem_get h hb
  have hne : a ≠ b := by
    obtain ⟨f, hf, _, h2⟩ := ha
    obtain ⟨_, _, h3, _⟩ := hb
    rw [elemStart_succ hf] at h3
    omega
  refine .beforeAll (l := .sequential e'.name) hx hy hne ?_ ?_
  · refine (mem_extendLabels _ _ _).mpr (.inr ?_)
    rw [he']
    exact (mem_addLabel _ _ _).mpr (.inr rfl)
  · show _ ∈ y.tags ++ (e'.tags ++ [_])
    simp

/-- Full statement: every system of an element ends before any system of a later element starts, and the workload can be
added. Missing: elements without systems between the two (`C97_empty_element_fails`), and that the workload can be added
(`C97_modified_systems_fails`; see `C97_functions` for tuples of functions). -/
theorem C97_in_order_partial {t : Nat} {ws : List (Workload W ε)} (hb : ∀ e ∈ ws, Built e) {w : Workload W ε}
    (h : Workload.ofTupleSequential t ws = .ok w) {sch : Scheduler W ε} {c : Created W ε} (hc : createWorkload sch w = .ok c)
    {i k : Nat} (hik : i < k) (hne : ∀ (m : Nat) e, i < m → m < k → ws[m]? = some e → e.systems ≠ [])
    {a b : Nat} (ha : FromElem ws a i) (hbk : FromElem ws b k) : c.separated a b := by
  have hw := sequential_built hb h
  have hbatch : ∀ (d : Nat) (b : Nat), i + 1 + d ≤ k → FromElem ws b (i + 1 + d) →
      ∃ ka kb, c.inBatch a ka ∧ c.inBatch b kb ∧ ka < kb := by
    intro d
    induction d with
    | zero => intro b _ hb1; exact (C51_explicit_order hw hc (next_explicit h ha hb1)).2
    | succ d ih =>
      intro b hd hb1
      obtain ⟨e, he⟩ : ∃ e, ws[i + 1 + d]? = some e := by
        obtain ⟨f, hf, _⟩ := hb1
        have := (List.getElem?_eq_some_iff.mp hf).1
        exact ⟨_, List.getElem?_eq_getElem (by omega)⟩
      have hpos : 0 < e.systems.length := List.length_pos_iff.mpr (hne _ e (by omega) (by omega) he)
      have hm : FromElem ws (elemStart ws (i + 1 + d)) (i + 1 + d) := ⟨e, he, Nat.le_refl _, by omega⟩
      obtain ⟨ka, km, h1, h2, h3⟩ := ih _ (by omega) hm
      obtain ⟨km', kb, h4, h5, h6⟩ := (C51_explicit_order hw hc (next_explicit h hm hb1)).2
      have := C51_one_batch hw hc h2 h4
      exact ⟨ka, kb, h1, h5, by omega⟩
  have hk : i + 1 + (k - (i + 1)) = k := by omega
  obtain ⟨ka, kb, h1, h2, h3⟩ := hbatch (k - (i + 1)) b (by omega) (by rw [hk]; exact hbk)
  refine ⟨?_, ka, kb, h1, h2, h3⟩
  obtain ⟨p, hp⟩ := List.mem_iff_getElem?.mp h1
  obtain ⟨q, hq⟩ := List.mem_iff_getElem?.mp h2
  refine ⟨p, q, ka, kb, ?_, hp, hq⟩
  rcases Nat.lt_trichotomy p q with hlt | rfl | hlt
  · exact hlt
  · rw [hp] at hq; cases hq; omega
  · have hm := C49_batches_agree hw hc
    obtain ⟨l1, e1⟩ := List.getElem?_eq_some_iff.mp hp
    obtain ⟨l2, e2⟩ := List.getElem?_eq_some_iff.mp hq
    have := List.pairwise_iff_getElem.mp hm q p l2 l1 hlt
    rw [e1, e2] at this
    have : kb ≤ ka := this
    omega

/-- A tuple of different functions, whatever they borrow: `into_sequential_workload` does not panic, the workload can be
added under a free name, and the functions run strictly one after the other in the order of the tuple. -/
theorem C97_functions {t : Nat} {fs : List (Nat × WSys W ε)} (hf : ∀ p ∈ fs, PlainSystem p.1 p.2) (hd : (fs.map (·.1)).Nodup)
    {sch : Scheduler W ε} (hname : sch.contains (.workload t) = false) :
    ∃ w c, Workload.ofTupleSequential t (fs.map fun p => Workload.ofSystem p.1 p.2) = .ok w ∧ createWorkload sch w = .ok c
      ∧ w.systems.map (·.fn) = fs.map (·.2.fn)
      ∧ ∀ (i k : Nat), i < k → k < fs.length → c.separated i k := by
  have hplain : ∀ p ∈ fs, p.2.typeId = p.1 ∧ p.2.tags = [.system p.1] ∧ p.2.beforeAll = [] ∧ p.2.afterAll = []
      ∧ p.2.reqIn = [] ∧ p.2.reqBefore = [] ∧ p.2.reqAfter = [] := by
    intro p hp
    obtain ⟨bs, f, tr, hs⟩ := hf p hp
    unfold WSys.ofFn at hs
    cases hcb : checkBorrows bs with
    | error e => rw [hcb] at hs; cases hs
    | ok u =>
      rw [hcb] at hs
      simp only [Except.ok.injEq] at hs
      rw [← hs]
      exact ⟨rfl, rfl, rfl, rfl, rfl, rfl, rfl⟩
  generalize hws : fs.map (fun p => Workload.ofSystem p.1 p.2) = ws
  have hget : ∀ (i : Nat) p, fs[i]? = some p → ws[i]? = some (Workload.ofSystem p.1 p.2) := by
    intro i p hp
    rw [← hws, List.getElem?_map, hp]; rfl
  have hlenws : ws.length = fs.length := by rw [← hws, List.length_map]
  have hgetr : ∀ (i : Nat) e, ws[i]? = some e → ∃ p, fs[i]? = some p ∧ e = Workload.ofSystem p.1 p.2 := by
    intro i e he
    rw [← hws, List.getElem?_map] at he
    cases hp : fs[i]? with
    | none => rw [hp] at he; cases he
    | some p => rw [hp] at he; cases he; exact ⟨p, rfl, rfl⟩
  have hstart : ∀ i, i ≤ fs.length → elemStart ws i = i := by
    intro i
    induction i with
    | zero => intro _; rfl
    | succ i ih =>
      intro hi
      rw [elemStart_succ (hget i _ (List.getElem?_eq_getElem (by omega))), ih (by omega)]
      rfl
  have hbuilt : ∀ e ∈ ws, Built e := by
    intro e he
    rw [← hws] at he
    obtain ⟨p, hp, rfl⟩ := List.mem_map.mp he
    obtain ⟨bs, f, tr, hs⟩ := hf p hp
    exact .ofSystem _ (.ofFn hs)
  obtain ⟨_, h2, h3⟩ := loop_systems ws (emptyTuple_propagate t)
  have h0 : (Workload.emptyTuple t : Workload W ε).systems.length = 0 := rfl
  rw [h0, Nat.zero_add, hlenws, hstart _ (Nat.le_refl _)] at h2
  have hsys : ∀ (i : Nat) p, fs[i]? = some p →
      (Workload.sequentialLoop (Workload.emptyTuple t) ws).systems[i]? =
        some (placedAt (Workload.ofSystem p.1 p.2) ws[i + 1]? i p.2) := by
    intro i p hp
    have hi : i < fs.length := (List.getElem?_eq_some_iff.mp hp).1
    have := h3 i 0 _ p.2 (hget i p hp) rfl
    rw [h0, hstart i (by omega), Nat.zero_add, Nat.add_zero] at this
    exact this
  have hext : ∀ {α : Type} (g : WSys W ε → α) (g' : Nat × WSys W ε → α),
      (∀ (p : Nat × WSys W ε) n k, p ∈ fs → g (placedAt (Workload.ofSystem p.1 p.2) n k p.2) = g' p) →
      (Workload.sequentialLoop (Workload.emptyTuple t) ws).systems.map g = fs.map g' := by
    intro α g g' hg
    apply List.ext_getElem?
    intro i
    rw [List.getElem?_map, List.getElem?_map]
    cases hp : fs[i]? with
    | none =>
      have := List.getElem?_eq_none_iff.mp hp
      rw [List.getElem?_eq_none_iff.mpr (by omega)]; rfl
    | some p =>
      rw [hsys i p hp]
      simp only [Option.map_some]
      rw [hg _ _ _ (List.mem_of_getElem? hp)]
  have hok : Workload.ofTupleSequential t ws = .ok (Workload.sequentialLoop (Workload.emptyTuple t) ws) := by
    unfold Workload.ofTupleSequential
    dsimp only
    rw [if_pos]
    rw [hext (·.typeId) (·.1) (fun p n k hp => (hplain p hp).1)]
    exact hd
  have hw := sequential_built hbuilt hok
  have hfwd : ∀ a b, Before (Workload.sequentialLoop (Workload.emptyTuple t) ws) a b → a < b := by
    intro a b hab
    rcases hab with he | hi
    · cases he with
      | @beforeAll x y l hx hy hne hlx hly =>
        have ha : a < fs.length := by rw [← h2]; exact (List.getElem?_eq_some_iff.mp hx).1
        have hb : b < fs.length := by rw [← h2]; exact (List.getElem?_eq_some_iff.mp hy).1
        rw [hsys a _ (List.getElem?_eq_getElem ha)] at hx
        rw [hsys b _ (List.getElem?_eq_getElem hb)] at hy
        cases hx; cases hy
        have hpa := hplain _ (List.getElem_mem ha)
        have hpb := hplain _ (List.getElem_mem hb)
        rcases (mem_extendLabels _ _ _).mp hlx with hl | hl
        · rw [hpa.2.2.1] at hl; cases hl
        · unfold chained at hl
          split at hl
          · rename_i e' he'
            obtain ⟨q, hq, rfl⟩ := hgetr _ _ he'
            rcases (mem_addLabel _ _ _).mp hl with hl | hl
            · cases hl
            · subst hl
              have hly' : Label.sequential (.workload q.1) ∈ fs[b].2.tags ++ ([.workload fs[b].1] ++ [.sequential (.workload fs[b].1)]) := hly
              rw [hpb.2.1] at hly'
              simp at hly'
              obtain ⟨hl1, hq'⟩ := List.getElem?_eq_some_iff.mp hq
              have : (fs.map (·.1))[a + 1]? = (fs.map (·.1))[b]? := by
                rw [List.getElem?_map, List.getElem?_map, hq, List.getElem?_eq_getElem hb]
                simp [hly']
              have := (List.getElem?_inj (by rw [List.length_map]; exact hl1) hd).mp this
              omega
          · cases hl
      | @afterAll x y l hx hy hne hly hlx =>
        have hb : b < fs.length := by rw [← h2]; exact (List.getElem?_eq_some_iff.mp hy).1
        rw [hsys b _ (List.getElem?_eq_getElem hb)] at hy
        cases hy
        have hpb := hplain _ (List.getElem_mem hb)
        rcases (mem_extendLabels _ _ _).mp hly with hl | hl
        · rw [hpb.2.2.2.1] at hl; cases hl
        · cases hl
      | barrier hk h1 h2 _ => omega
    · exact hi.1
  have hacyc : ¬ Cyclic (Workload.sequentialLoop (Workload.emptyTuple t) ws) := by
    rintro ⟨a, ha⟩
    have : ∀ x y, Relation.TransGen (Before (Workload.sequentialLoop (Workload.emptyTuple t) ws)) x y → x < y := by
      intro x y hxy
      induction hxy with
      | single hs => exact hfwd _ _ hs
      | tail _ hs ih => exact Nat.lt_trans ih (hfwd _ _ hs)
    exact Nat.lt_irrefl _ (this a a ha)
  have hnm : (Workload.sequentialLoop (Workload.emptyTuple t) ws).name = .workload t := by
    exact loop_name ws _
  have hreq : ∀ s ∈ (Workload.sequentialLoop (Workload.emptyTuple t) ws).systems, s.reqIn = [] ∧ s.reqBefore = [] ∧ s.reqAfter = [] := by
    intro s hs
    obtain ⟨i, hi⟩ := List.mem_iff_getElem?.mp hs
    have hil : i < fs.length := by rw [← h2]; exact (List.getElem?_eq_some_iff.mp hi).1
    rw [hsys i _ (List.getElem?_eq_getElem hil)] at hi
    cases hi
    have hp := hplain _ (List.getElem_mem hil)
    refine ⟨hp.2.2.2.2.1, ?_, ?_⟩
    · show extendLabels fs[i].2.reqBefore [] = []
      rw [hp.2.2.2.2.2.1]; rfl
    · show extendLabels fs[i].2.reqAfter [] = []
      rw [hp.2.2.2.2.2.2]; rfl
  obtain ⟨c, hc⟩ := (C53_cycle_iff hw (by rw [hnm]; exact hname) hreq).2.mpr hacyc
  refine ⟨_, c, hok, hc, hext (·.fn) (·.2.fn) (fun p n k hp => rfl), ?_⟩
  intro i k hik hk
  refine C97_in_order_partial hbuilt hok hc hik ?_ ?_ ?_
  · intro m e _ _ he
    obtain ⟨p, _, rfl⟩ := hgetr m e he
    exact fun hn => by cases hn
  · refine ⟨_, hget i _ (List.getElem?_eq_getElem (by omega)), ?_, ?_⟩
    · rw [hstart i (by omega)]; exact Nat.le_refl _
    · rw [hstart i (by omega)]; show i < i + 1; omega
  · refine ⟨_, hget k _ (List.getElem?_eq_getElem hk), ?_, ?_⟩
    · rw [hstart k (by omega)]; exact Nat.le_refl _
    · rw [hstart k (by omega)]; show k < k + 1; omega

/-- `(write5, read5, other)` as functions: no panic, three batches. -/
def seqFns : List (Nat × Ex.S) := [(1, Ex.sys 1 [Ex.viewMut 5]), (2, Ex.sys 2 [Ex.view 5]), (3, Ex.sys 3 [Ex.view 6])]

example : ∃ w c, Workload.ofTupleSequential 50 (seqFns.map fun p => Workload.ofSystem p.1 p.2) = .ok w
    ∧ createWorkload Scheduler.empty w = .ok c ∧ c.separated 1 2 := by
  obtain ⟨w, c, h1, h2, _, h3⟩ := C97_functions (t := 50) (fs := seqFns) (sch := (Scheduler.empty : Scheduler Nat Unit))
    (by
      intro p hp
      simp only [seqFns, List.mem_cons, List.not_mem_nil, or_false] at hp
      rcases hp with rfl | rfl | rfl
      · exact ⟨[Ex.viewMut 5], fun w => (w + 1, .ok ()), [], rfl⟩
      · exact ⟨[Ex.view 5], fun w => (w + 2, .ok ()), [], rfl⟩
      · exact ⟨[Ex.view 6], fun w => (w + 3, .ok ()), [], rfl⟩)
    (by decide) rfl
  exact ⟨w, c, h1, h2, h3 1 2 (by decide) (by decide)⟩

/-- The documented example: a workload of two systems, then two systems. -/
def seqDoc : List Ex.Wl := [((Workload.new (.str 7)).withSystem (Ex.sys 1 [])).withSystem (Ex.sys 2 []),
  Workload.ofSystem 3 (Ex.sys 3 []), Workload.ofSystem 4 (Ex.sys 4 [])]

/-- The systems of the first element share a batch, the others are alone. -/
theorem C97_documented : ∃ w, Workload.ofTupleSequential 50 seqDoc = .ok w ∧
    (createWorkload Scheduler.empty w).toOption.map (fun c => c.batches.parallel) = some [(none, [0, 1]), (none, [2]), (none, [3])] :=
  ⟨_, rfl, rfl⟩

example : FromElem seqDoc 1 0 ∧ FromElem seqDoc 3 2 ∧ ∀ (m : Nat) e, 0 < m → m < 2 → seqDoc[m]? = some e → e.systems ≠ [] := by
  refine ⟨⟨_, rfl, by decide, by decide⟩, ⟨_, rfl, by decide, by decide⟩, ?_⟩
  intro m e h1 h2 he
  have : m = 1 := by omega
  subst this
  cases he
  exact fun h => by cases h

/-- A system, an empty workload, another system. -/
def seqHole : List Ex.Wl := [Workload.ofSystem 1 (Ex.sys 1 [Ex.viewMut 5]), Workload.new (.str 9), Workload.ofSystem 2 (Ex.sys 2 [Ex.viewMut 6])]

/-- Finding: an element without systems cuts the chain: the first and the last system run at the same time. -/
theorem C97_empty_element_fails : (∀ e ∈ seqHole, Built e) ∧ ∃ w, Workload.ofTupleSequential 50 seqHole = .ok w ∧
    (createWorkload Scheduler.empty w).toOption.map (fun c => c.batches.parallel) = some [(none, [0, 1])] := by
  refine ⟨?_, _, rfl, rfl⟩
  intro e he
  simp only [seqHole, List.mem_cons, List.not_mem_nil, or_false] at he
  rcases he with rfl | rfl | rfl
  · exact .ofSystem _ (Ex.sys_fresh _ _ rfl)
  · exact .new _ trivial
  · exact .ofSystem _ (Ex.sys_fresh _ _ rfl)

/-- Three different systems with a tag each; 100 stands for the type `WorkloadSystem`. -/
def seqTagged : List Ex.Wl := [Workload.ofSystem 100 ((Ex.sys 1 []).addTag (.str 1)),
  Workload.ofSystem 100 ((Ex.sys 2 []).addTag (.str 2)), Workload.ofSystem 100 ((Ex.sys 3 []).addTag (.str 3))]

/-- Finding: the elements are told apart by their type, and all modified systems have the type `WorkloadSystem`: with three
of them the constraints the tuple adds contradict each other and the workload cannot be added. -/
theorem C97_modified_systems_fails : (∀ e ∈ seqTagged, Built e) ∧ ∃ w, Workload.ofTupleSequential 50 seqTagged = .ok w ∧
    ∃ names, createWorkload Scheduler.empty w = .error (.err (.cycle names)) := by
  refine ⟨?_, _, rfl, _, rfl⟩
  intro e he
  simp only [seqTagged, List.mem_cons, List.not_mem_nil, or_false] at he
  rcases he with rfl | rfl | rfl <;> exact .ofSystem _ (.tag _ trivial (Ex.sys_fresh _ _ rfl))

/-- The panic: exactly when two systems have the same type. -/
theorem C97_panic {t : Nat} {ws : List (Workload W ε)} : Workload.ofTupleSequential t ws = .error .panic ↔
    ¬ ((ws.flatMap (·.systems)).map (·.typeId)).Nodup := by
  unfold Workload.ofTupleSequential
  dsimp only
  rw [loop_types ws (emptyTuple_propagate t), show (Workload.emptyTuple t : Workload W ε).systems = [] from rfl,
    List.map_nil, List.nil_append]
  split
  · rename_i h; simp [h]
  · rename_i h; simp [h]

example : Workload.ofTupleSequential 50 [Workload.ofSystem 1 (Ex.sys 1 []), Workload.ofSystem 1 (Ex.sys 1 [])] = .error .panic :=
  C97_panic.mpr (by decide)

end Verif.Sched
