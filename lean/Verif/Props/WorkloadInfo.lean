import Verif.Lemmas.WorkloadInfo
import Verif.Lemmas.Registry
import Verif.Props.Scheduler

/-!
# C76: the information about workloads

`Describes` and `Reason` are in `Spec/WorkloadInfo.lean`.
-/
namespace Verif.Sched

variable {W ε : Type}

/-! ## Batches and systems -/

theorem batchOf_perm {t : List (Nat × Sys W ε)}
    (sep : t.Pairwise fun p q => p.1 = q.1 → conflict q.2.borrows p.2.borrows = false) (b : Nat) :
    ((batchOf t b).1.toList ++ (batchOf t b).2).Perm ((t.filter fun p => p.1 == b).map (·.2)) := by
  have h1 : (batchOf t b).1.toList = (t.filter fun p => p.1 == b && p.2.single).map (·.2) := by
    rcases single_unique sep b with h | ⟨s, h, _⟩ <;> (unfold batchOf; rw [h]; rfl)
  rw [h1]
  show (_ ++ (t.filter fun p => p.1 == b && !p.2.single).map (·.2)).Perm _
  rw [← List.map_append]
  apply List.Perm.map
  have := filter_split_perm (t.filter fun p => p.1 == b) (fun p => p.2.single)
  rw [List.filter_filter, List.filter_filter] at this
  have c1 : (fun p : Nat × Sys W ε => p.2.single && p.1 == b) = fun p => p.1 == b && p.2.single := by
    funext p; exact Bool.and_comm _ _
  have c2 : (fun p : Nat × Sys W ε => (!p.2.single) && p.1 == b) = fun p => p.1 == b && !p.2.single := by
    funext p; exact Bool.and_comm _ _
  rw [c1, c2] at this
  exact this

/-- The information of a workload has its name and as many batches as are stored, and the descriptions of a batch are
descriptions of the systems the schedule puts in that batch, each once. -/
theorem C76_info {w : Workload W ε} (hw : Built w) {sch : Scheduler W ε} {c : Created W ε}
    (h : createWorkload sch w = .ok c) :
    c.info.name = w.name ∧ c.info.batches.length = c.batches.parallel.length
    ∧ ∀ (b : Nat) bi, c.info.batches[b]? = some bi →
      ∃ ps : List Nat, ps.Perm ((c.plan.filter fun p => p.2 == b).map (·.1))
        ∧ ps.length = (batchSystems bi).length
        ∧ ∀ (k : Nat) i p, (batchSystems bi)[k]? = some i → ps[k]? = some p →
          ∃ s, w.systems[p]? = some s ∧ Describes c w p s b i := by
  obtain ⟨ss, o, rfl, hg, ho, hr, hn⟩ := created_info hw.wf h
  refine ⟨rfl, ?_, ?_⟩
  · show o.report.length = o.parallel.length
    rw [hr.len, ho.par]
  · intro b bi hbi
    replace hbi : o.report[b]? = some bi := hbi
    have hb : b < o.info.length := by
      rw [← hr.len]; exact (List.getElem?_eq_some_iff.mp hbi).1
    have hi : o.info[b]? = some (batchOf o.trace b) := by
      conv => lhs; rw [ho.info]
      rw [List.getElem?_map, List.getElem?_range hb]
      rfl
    have ht := hr.tells b bi _ hbi hi
    have hall := ht.1.append ht.2
    have hp := batchOf_perm ho.sep b
    refine ⟨((batchOf o.trace b).1.toList ++ (batchOf o.trace b).2).map (·.uid), ?_, ?_, ?_⟩
    · have hplan : ((made sch w o).plan.filter fun p => p.2 == b).map (·.1)
          = ((o.trace.filter fun p => p.1 == b).map (·.2)).map (·.uid) := by
        unfold Created.plan
        rw [List.filter_map, List.map_map, List.map_map]
        rfl
      rw [hplan]
      exact hp.map _
    · rw [List.length_map]
      exact hall.length.symm
    · intro k i p hk hpk
      rw [List.getElem?_map] at hpk
      obtain ⟨y, hy, rfl⟩ := Option.map_eq_some_iff.mp hpk
      have hmem : (b, y) ∈ o.trace := by
        have := hp.mem_iff.mp (List.mem_of_getElem? hy)
        obtain ⟨q, hq, rfl⟩ := List.mem_map.mp this
        obtain ⟨h1, h2⟩ := List.mem_filter.mp hq
        have : q.1 = b := by simpa using h2
        rw [← this]
        exact h1
      exact slot_describes hw.wf hg ho hn hmem (hall.get hk hy)

/-- Every system of the workload is described. -/
theorem C76_every_system {w : Workload W ε} (hw : Built w) {sch : Scheduler W ε} {c : Created W ε}
    (h : createWorkload sch w = .ok c) {p : Nat} {s : WSys W ε} (hs : w.systems[p]? = some s) :
    ∃ (b : Nat) (bi : BatchInfo) (i : SystemInfo), c.info.batches[b]? = some bi ∧ i ∈ batchSystems bi
      ∧ Describes c w p s b i := by
  have hm : p ∈ c.plan.map (·.1) :=
    (C49_each_system_once hw h).mem_iff.mpr (List.mem_range.mpr (List.getElem?_eq_some_iff.mp hs).1)
  obtain ⟨q, hq, rfl⟩ := List.mem_map.mp hm
  obtain ⟨_, hlen, hall⟩ := C76_info hw h
  have hb : q.2 < c.info.batches.length := by
    obtain ⟨ss, o, rfl, hg, ho, hr, hn⟩ := created_info hw.wf h
    obtain ⟨x, hx, rfl⟩ := List.mem_map.mp hq
    show x.1 < o.report.length
    rw [hr.len]
    exact ho.bound x hx
  have hbi : c.info.batches[q.2]? = some c.info.batches[q.2] := List.getElem?_eq_getElem hb
  obtain ⟨ps, hperm, hl, hd⟩ := hall q.2 _ hbi
  have hmem : q.1 ∈ ps := hperm.mem_iff.mpr
    (List.mem_map.mpr ⟨q, List.mem_filter.mpr ⟨hq, by simp⟩, rfl⟩)
  obtain ⟨k, hk⟩ := List.mem_iff_getElem?.mp hmem
  have hk' : k < (batchSystems c.info.batches[q.2]).length := by
    rw [← hl]; exact (List.getElem?_eq_some_iff.mp hk).1
  obtain ⟨s', hs', hdesc⟩ := hd k _ _ (List.getElem?_eq_getElem hk') hk
  rw [hs] at hs'
  cases hs'
  exact ⟨q.2, _, _, hbi, List.getElem_mem _, hdesc⟩

/-- The numbers in the information are the numbers stored for running, batch by batch and slot by slot. -/
theorem C76_batches {w : Workload W ε} (hw : Built w) {sch : Scheduler W ε} {c : Created W ε}
    (h : createWorkload sch w = .ok c) :
    c.info.batches.map (fun b => (b.1.map (·.uniqueId), b.2.map (·.uniqueId))) = c.batches.parallel := by
  obtain ⟨ss, o, rfl, hg, ho, hr, hn⟩ := created_info hw.wf h
  show o.report.map _ = o.parallel
  rw [ho.parSys]
  apply List.ext_getElem?
  intro b
  rw [List.getElem?_map, List.getElem?_map]
  cases hb : o.report[b]? with
  | none =>
    have : o.info[b]? = none := by
      rw [List.getElem?_eq_none_iff, ← hr.len]
      exact List.getElem?_eq_none_iff.mp hb
    rw [this]; rfl
  | some r =>
    have hlt : b < o.info.length := by rw [← hr.len]; exact (List.getElem?_eq_some_iff.mp hb).1
    have hx : o.info[b]? = some o.info[b] := List.getElem?_eq_getElem hlt
    obtain ⟨h1, h2⟩ := hr.tells b r _ hb hx
    rw [hx]
    show some _ = some _
    have key : ∀ {l : List SystemInfo} {m : List (Sys W ε)}, All2 (Slot o.trace b) l m →
        l.map (·.uniqueId) = m.map (·.index) := by
      intro l m hl
      induction hl with
      | nil => rfl
      | cons hs _ ih =>
        rw [List.map_cons, List.map_cons, ih, hs.1]; rfl
    have e1 : r.1.map (·.uniqueId) = o.info[b].1.map (·.index) := by
      have := key h1
      cases hr1 : r.1 with
      | none =>
        cases ho1 : o.info[b].1 with
        | none => rfl
        | some y => rw [hr1, ho1] at this; cases this
      | some i =>
        cases ho1 : o.info[b].1 with
        | none => rw [hr1, ho1] at this; cases this
        | some y =>
          rw [hr1, ho1] at this
          simpa using this
    simp only [e1, key h2]

/-- The first slot of a batch is for a system that must be on the calling thread or takes all the storages, and only such
a system is there. -/
theorem C76_single {w : Workload W ε} (hw : Built w) {sch : Scheduler W ε} {c : Created W ε}
    (h : createWorkload sch w = .ok c) {b : Nat} {bi : BatchInfo} (hb : c.info.batches[b]? = some bi) :
    (∀ i, bi.1 = some i → ∃ t ∈ i.borrow, t.threadSafe = false ∨ t.storage = allStorages)
    ∧ ∀ i ∈ bi.2, ∀ t ∈ i.borrow, t.threadSafe = true ∧ t.storage ≠ allStorages := by
  obtain ⟨ss, o, rfl, hg, ho, hr, hn⟩ := created_info hw.wf h
  replace hb : o.report[b]? = some bi := hb
  have hlt : b < o.info.length := by rw [← hr.len]; exact (List.getElem?_eq_some_iff.mp hb).1
  have hi : o.info[b]? = some (batchOf o.trace b) := by
    conv => lhs; rw [ho.info]
    rw [List.getElem?_map, List.getElem?_range hlt]
    rfl
  obtain ⟨h1, h2⟩ := hr.tells b bi _ hb hi
  constructor
  · intro i hi1
    obtain ⟨y, hy, hsl, _⟩ := h1.left (a := i) (by rw [hi1]; simp)
    rw [Option.mem_toList] at hy
    have hs := ((batch_single o.trace ho.sep b y).mp hy).2
    unfold Sys.single at hs
    rw [List.any_eq_true] at hs
    obtain ⟨t, ht, hc⟩ := hs
    refine ⟨t, by rw [hsl]; exact ht, ?_⟩
    simpa using hc
  · intro i hi2 t ht
    obtain ⟨y, hy, hsl, _⟩ := h2.left hi2
    have hs := ((mem_batch o.trace b y).mp hy).2
    unfold Sys.single at hs
    rw [List.any_eq_false] at hs
    rw [hsl] at ht
    have := hs t ht
    simpa using this

/-- `NotSendSync` is never reported. -/
theorem C76_never_notSendSync {w : Workload W ε} (hw : Built w) {sch : Scheduler W ε} {c : Created W ε}
    (h : createWorkload sch w = .ok c) {b : Nat} {bi : BatchInfo} (hb : c.info.batches[b]? = some bi) {i : SystemInfo}
    (hi : i ∈ batchSystems bi) (t : TypeInfo) : i.conflict ≠ some (.notSendSync t) := by
  intro hc
  obtain ⟨k, hk⟩ := List.mem_iff_getElem?.mp hi
  obtain ⟨_, _, hall⟩ := C76_info hw h
  obtain ⟨ps, _, hl, hd⟩ := hall b bi hb
  have hlt : k < ps.length := by rw [hl]; exact (List.getElem?_eq_some_iff.mp hk).1
  obtain ⟨s, _, hdesc⟩ := hd k i _ hk (List.getElem?_eq_getElem hlt)
  cases hdesc.reason _ hc

/-- The systems of the first batch have no conflict. -/
theorem C76_first_batch {w : Workload W ε} (hw : Built w) {sch : Scheduler W ε} {c : Created W ε}
    (h : createWorkload sch w = .ok c) {bi : BatchInfo} (hb : c.info.batches[0]? = some bi) {i : SystemInfo}
    (hi : i ∈ batchSystems bi) : i.conflict = none := by
  obtain ⟨k, hk⟩ := List.mem_iff_getElem?.mp hi
  obtain ⟨_, _, hall⟩ := C76_info hw h
  obtain ⟨ps, _, hl, hd⟩ := hall 0 bi hb
  have hlt : k < ps.length := by rw [hl]; exact (List.getElem?_eq_some_iff.mp hk).1
  obtain ⟨s, _, hdesc⟩ := hd k i _ hk (List.getElem?_eq_getElem hlt)
  cases hc : i.conflict with
  | none => rfl
  | some f =>
    cases hdesc.reason f hc with
    | borrow _ _ h0 => omega
    | thread _ _ h0 => omega

/-! ## Numbers -/

theorem insertSystems_fresh (ws : List (WSys W ε)) : ∀ (sch : Scheduler W ε),
    (∀ s ∈ ws, sch.number s.typeId = none) → (ws.map (·.typeId)).Nodup → ∀ (p : Nat) x,
      (insertSystems sch ws).2[p]? = some x → x.index = sch.systems.length + p := by
  induction ws with
  | nil => intro sch _ _ p x hx; cases hx
  | cons s rest ih =>
    intro sch hn hd p x hx
    rw [List.map_cons, List.nodup_cons] at hd
    have hf : sch.lookup.find? (fun p => p.1 == s.typeId) = none := by
      have := hn s (by simp)
      unfold Scheduler.number at this
      exact Option.map_eq_none_iff.mp this
    have e : (insertSystem sch s).1 = { sch with
          systems := sch.systems ++ [s.fn]
          systemNames := sch.systemNames ++ [s.name]
          lookup := sch.lookup ++ [(s.typeId, sch.systems.length)] } ∧ (insertSystem sch s).2.index = sch.systems.length := by
      unfold insertSystem
      rw [hf]
      exact ⟨rfl, rfl⟩
    cases p with
    | zero => cases hx; exact e.2
    | succ p =>
      have := ih (insertSystem sch s).1 ?_ hd.2 p x hx
      · rw [this, e.1]
        show (sch.systems ++ [s.fn]).length + p = _
        rw [List.length_append, List.length_singleton]; omega
      · intro t ht
        rw [e.1]
        unfold Scheduler.number
        show ((sch.lookup ++ [(s.typeId, sch.systems.length)]).find? _).map _ = none
        rw [List.find?_append]
        have h1 := hn t (List.mem_cons_of_mem _ ht)
        unfold Scheduler.number at h1
        rw [Option.map_eq_none_iff.mp h1]
        have hne : s.typeId ≠ t.typeId := by
          intro he
          exact hd.1 (by rw [he]; exact List.mem_map.mpr ⟨t, ht, rfl⟩)
        simp [hne]

/-- When none of the functions of the workload is known to the world and they are all different, the numbers are the
positions, shifted by the number of functions the world knew: in a new world, the positions themselves. -/
theorem C76_numbers_partial {w : Workload W ε} (hw : Built w) {sch : Scheduler W ε} {c : Created W ε}
    (h : createWorkload sch w = .ok c) (hnew : ∀ s ∈ w.systems, sch.number s.typeId = none)
    (hdiff : (w.systems.map (·.typeId)).Nodup) {p : Nat} {s : WSys W ε} (hs : w.systems[p]? = some s) :
    c.sch.number s.typeId = some (sch.systems.length + p) := by
  obtain ⟨ss, o, rfl, hg, ho, hr, hn⟩ := created_info hw.wf h
  obtain ⟨x, hx, hp⟩ := (link sch w).fwd hs
  have := ((insertSystems_number w.systems sch).2 p x s hx hs).1
  rw [insertSystems_fresh w.systems sch hnew hdiff p x hx] at this
  exact this

/-! ## The map of informations -/

/-- The information kept under a label; `src/world.rs:1269-1280` `workloads_info` copies the map. -/
def Scheduler.info (sch : Scheduler W ε) (l : Label) : Option WorkloadInfo :=
  (sch.infos.find? fun p => decide (p.1 = l)).map (·.2)

theorem insertInfo_info (sch : Scheduler W ε) (n l : Label) (i : WorkloadInfo) :
    (sch.insertInfo n i).info l = if l = n then some i else sch.info l := by
  unfold Scheduler.info Scheduler.insertInfo
  show (((sch.infos.filter _) ++ [(n, i)]).find? _).map _ = _
  rw [List.find?_append, List.find?_filter]
  by_cases h : l = n
  · subst h
    have : (sch.infos.find? fun p => decide (decide (p.1 ≠ l) = true ∧ decide (p.1 = l) = true)) = none := by
      rw [List.find?_eq_none]
      intro p _
      by_cases hp : p.1 = l <;> simp [hp]
    rw [this]
    simp
  · have : (fun p : Label × WorkloadInfo => decide (decide (p.1 ≠ n) = true ∧ decide (p.1 = l) = true)) = fun p => decide (p.1 = l) := by
      funext p
      by_cases hp : p.1 = l
      · simp [hp, h]
      · simp [hp]
    rw [this, if_neg h]
    have hn : ([(n, i)].find? fun p : Label × WorkloadInfo => decide (p.1 = l)) = none := by
      simp [Ne.symm h]
    rw [hn]
    simp

/-- Adding a workload keeps the information of the others and, when it succeeds, stores the information that was built;
a failed addition changes no information. -/
theorem C76_add {w : Workload W ε} (hw : Built w) (sch : Scheduler W ε) :
    (∃ c, createWorkload sch w = .ok c ∧ (sch.add w).2 = .ok ()
      ∧ ∀ l, (sch.add w).1.info l = if l = w.name then some c.info else sch.info l)
    ∨ ((∃ e, (sch.add w).2 = .error e) ∧ ∀ l, (sch.add w).1.info l = sch.info l) := by
  have hst : ∀ (s : WSys W ε) (sch : Scheduler W ε), (insertSystem sch s).1.infos = sch.infos := by
    intro s sch
    unfold insertSystem
    dsimp only
    split <;> rfl
  have hins : ∀ (ws : List (WSys W ε)) (sch : Scheduler W ε), (insertSystems sch ws).1.infos = sch.infos := by
    intro ws
    induction ws with
    | nil => intro sch; rfl
    | cons s rest ih => intro sch; exact (ih _).trans (hst s sch)
  rcases add_cases hw sch with ⟨_, e⟩ | ⟨_, _, x, e, _⟩ | ⟨_, _, c, hc, e, hsch⟩
  · exact .inr ⟨⟨_, by rw [e]⟩, fun l => by rw [e]⟩
  · refine .inr ⟨⟨_, by rw [e]⟩, fun l => ?_⟩
    rw [e]
    unfold Scheduler.info
    rw [hins]
  · refine .inl ⟨c, hc, by rw [e], fun l => ?_⟩
    rw [e]
    show (c.sch.insertInfo w.name c.info).info l = _
    rw [insertInfo_info]
    have : c.sch.info l = sch.info l := by
      unfold Scheduler.info
      rw [hsch]
      show (List.find? _ (insertSystems sch w.systems).1.infos).map _ = _
      rw [hins]
    rw [this]

theorem store_workload (sch : Scheduler W ε) (n l : Label) (b : Batches W ε) (hn : sch.contains n = false) :
    (sch.store n b).workload l = if l = n then some b else sch.workload l := by
  unfold Scheduler.workload Scheduler.store
  show ((sch.workloads ++ [(n, b)]).find? _).map _ = _
  rw [List.find?_append]
  by_cases h : l = n
  · subst h
    have : (sch.workloads.find? fun p => decide (p.1 = l)) = none := by
      rw [List.find?_eq_none]
      intro p hp hc
      unfold Scheduler.contains at hn
      rw [List.any_eq_false] at hn
      exact hn p hp hc
    rw [this]
    simp
  · have hn' : ([(n, b)].find? fun p : Label × Batches W ε => decide (p.1 = l)) = none := by
      simp [Ne.symm h]
    rw [hn', if_neg h]
    simp

theorem insertSystem_kept (s : WSys W ε) (sch : Scheduler W ε) :
    (insertSystem sch s).1.infos = sch.infos ∧ (insertSystem sch s).1.workloads = sch.workloads := by
  unfold insertSystem
  dsimp only
  split <;> exact ⟨rfl, rfl⟩

theorem insertSystems_kept (ws : List (WSys W ε)) : ∀ (sch : Scheduler W ε),
    (insertSystems sch ws).1.infos = sch.infos ∧ (insertSystems sch ws).1.workloads = sch.workloads := by
  induction ws with
  | nil => intro sch; exact ⟨rfl, rfl⟩
  | cons s rest ih =>
    intro sch
    exact ⟨(ih _).1.trans (insertSystem_kept s sch).1, (ih _).2.trans (insertSystem_kept s sch).2⟩

/-- The workload and the information under a label, which were made together from a workload of that name. -/
def Together (ops : List (RegOp W ε)) (sch : Scheduler W ε) : Prop :=
  ∀ l, (sch.workload l = none ∧ sch.info l = none)
    ∨ ∃ w sch' c, RegOp.add w ∈ ops ∧ w.name = l ∧ createWorkload sch' w = .ok c
      ∧ sch.workload l = some c.batches ∧ sch.info l = some c.info

theorem together_add {ops : List (RegOp W ε)} {sch : Scheduler W ε} (h : Together ops sch) {w : Workload W ε}
    (hw : Built w) (hm : RegOp.add w ∈ ops) : Together ops (sch.add w).1 := by
  intro l
  rcases add_cases hw sch with ⟨_, e⟩ | ⟨_, _, x, e, _⟩ | ⟨hno, _, c, hc, e, hsch⟩
  · rw [e]; exact h l
  · rw [e]
    have := h l
    unfold Scheduler.workload Scheduler.info at this ⊢
    rw [(insertSystems_kept _ _).1, (insertSystems_kept _ _).2]
    exact this
  · rw [e]
    show ((c.sch.insertInfo w.name c.info).workload l = none ∧ (c.sch.insertInfo w.name c.info).info l = none) ∨ _
    have e1 : (c.sch.insertInfo w.name c.info).workload l = if l = w.name then some c.batches else sch.workload l := by
      show c.sch.workload l = _
      rw [hsch, store_workload]
      · have : (insertSystems sch w.systems).1.workload l = sch.workload l := by
          unfold Scheduler.workload
          rw [(insertSystems_kept _ _).2]
        rw [this]
      · unfold Scheduler.contains at hno ⊢
        rw [(insertSystems_kept _ _).2]
        exact hno
    have e2 : (c.sch.insertInfo w.name c.info).info l = if l = w.name then some c.info else sch.info l := by
      rw [insertInfo_info]
      have : c.sch.info l = sch.info l := by
        unfold Scheduler.info
        rw [hsch]
        show (List.find? _ (insertSystems sch w.systems).1.infos).map _ = _
        rw [(insertSystems_kept _ _).1]
      rw [this]
    rw [e1, e2]
    by_cases hl : l = w.name
    · rw [if_pos hl, if_pos hl]
      exact .inr ⟨w, sch, c, hm, hl.symm, hc, rfl, rfl⟩
    · rw [if_neg hl, if_neg hl]
      exact h l

/-- In a history of additions and of choices of the default, each workload has its information, made with it, and there is
no other information. Missing: `rename_workload` (see `C76_renamed_fails`). -/
theorem C76_history_partial (ops : List (RegOp W ε)) (hb : ∀ w, RegOp.add w ∈ ops → Built w)
    (hr : ∀ a b, RegOp.rename a b ∉ ops) : Together ops (Scheduler.after ops) := by
  suffices h : ∀ (l : List (RegOp W ε)) (sch : Scheduler W ε), (∀ o ∈ l, o ∈ ops) → Together ops sch →
      Together ops (l.foldl Scheduler.step sch) from
    h ops Scheduler.empty (fun _ h => h) fun l => .inl ⟨rfl, rfl⟩
  intro l
  induction l with
  | nil => intro sch _ h; exact h
  | cons op rest ih =>
    intro sch hm h
    refine ih _ (fun o ho => hm o (List.mem_cons_of_mem _ ho)) ?_
    have hop := hm op (by simp)
    cases op with
    | add w => exact together_add h (hb w hop) hop
    | setDefault d =>
      show Together ops ((sch.setDefault d).getD sch)
      unfold Scheduler.setDefault
      split
      · exact h
      · exact h
    | rename a b => exact absurd hop (hr a b)

/-! ## Witnesses -/

namespace Ex

/-- The description of a system without the constraints. -/
def brief (i : SystemInfo) : Label × List Nat × Option Conflict × Nat := (i.name, i.after, i.conflict, i.uniqueId)

/-- The example workload: 4 alone first, because it asks to be before 1; then 1; then 2 and 3, which read what 1 writes. -/
theorem C76_witness : (createWorkload Scheduler.empty demo).toOption.map
      (fun c => c.info.batches.map fun b => (b.1.map brief, b.2.map brief))
    = some [(some (.system 4, [], none, 3), []), (none, [(.system 1, [3], none, 0)]),
        (none, [(.system 2, [0], some (.borrow (view 5) 0 (viewMut 5)), 1),
                (.system 3, [0], some (.borrow (view 5) 0 (viewMut 5)), 2)])] := by rfl

/-- It meets the hypotheses of `C76_numbers_partial`. -/
theorem C76_witness_numbers : (∀ s ∈ demo.systems, (Scheduler.empty : Scheduler Nat Unit).number s.typeId = none)
    ∧ (demo.systems.map (·.typeId)).Nodup := by
  refine ⟨fun s _ => rfl, by decide⟩

/-- The same function twice. -/
def twice : Wl := ((Workload.new (.str 1)).withSystem (sys 1 [viewMut 5])).withSystem (sys 1 [viewMut 5])

theorem twice_built : Built twice := .withSystem (.withSystem (.new _ trivial) (sys_fresh _ _ rfl)) (sys_fresh _ _ rfl)

/-- Function 1 twice, then function 2, then a system before 2 and a system after 2. -/
def refs : Wl :=
  (((((Workload.new (.str 1)).withSystem (sys 1 [view 5])).withSystem (sys 1 [view 5])).withSystem
    (sys 2 [view 5])).withSystem ((sys 3 [view 5]).addBeforeAll (.system 2))).withSystem
      ((sys 4 [view 5]).addAfterAll (.system 2))

theorem refs_built : Built refs :=
  .withSystem (.withSystem (.withSystem (.withSystem (.withSystem (.new _ trivial) (sys_fresh _ _ rfl))
    (sys_fresh _ _ rfl)) (sys_fresh _ _ rfl)) (.beforeAll _ trivial (sys_fresh _ _ rfl)))
    (.afterAll _ trivial (sys_fresh _ _ rfl))

/-- Three systems separated by barriers: the first and the last write storage 5. -/
def far : Wl :=
  ((((Workload.new (.str 1)).withSystem (sys 1 [viewMut 5])).withBarrier.withSystem (sys 2 [viewMut 6])).withBarrier).withSystem
    (sys 3 [viewMut 5])

theorem far_built : Built far :=
  .withSystem (.withBarrier (.withSystem (.withBarrier (.withSystem (.new _ trivial) (sys_fresh _ _ rfl)))
    (sys_fresh _ _ rfl))) (sys_fresh _ _ rfl)

/-- Two systems that write storage 5, then one that writes storage 6. -/
def late : Wl :=
  (((Workload.new (.str 1)).withSystem (sys 1 [viewMut 5])).withSystem (sys 2 [viewMut 5])).withSystem (sys 3 [viewMut 6])

theorem late_built : Built late :=
  .withSystem (.withSystem (.withSystem (.new _ trivial) (sys_fresh _ _ rfl)) (sys_fresh _ _ rfl)) (sys_fresh _ _ rfl)

end Ex

open Ex in
/-- `unique_id` does not identify a system of the workload: two systems with the same function have the same. -/
theorem C76_unique_id_fails : Built twice ∧ (createWorkload Scheduler.empty twice).toOption.map
      (fun c => c.info.batches.map fun b => (batchSystems b).map (·.uniqueId)) = some [[0], [0]] :=
  ⟨twice_built, rfl⟩

open Ex in
/-- The lists of constraints do not name systems the same way: system 2 is at position 2 and has `unique_id` 1; `before_all`
names it 1 and `after_all` names it 2. -/
theorem C76_references_fails : Built refs ∧ (createWorkload Scheduler.empty refs).toOption.map
      (fun c => (c.info.batches.flatMap batchSystems).map fun i =>
        (i.name, i.uniqueId, i.beforeAll.map (·.otherSystem), i.afterAll.map (·.otherSystem)))
    = some [(.system 1, 0, [], []), (.system 3, 2, [1], []), (.system 1, 0, [], []), (.system 2, 1, [], []),
        (.system 4, 3, [], [2])] :=
  ⟨refs_built, rfl⟩

open Ex in
/-- `conflict` is documented as what pushes a system out of the batch before. It can name a system of another batch:
the third system conflicts with the first, two batches before, and with nothing in the batch before. -/
theorem C76_previous_batch_fails : Built far ∧ (createWorkload Scheduler.empty far).toOption.map
      (fun c => c.info.batches.map fun b => (batchSystems b).map fun i => (i.name, i.conflict))
    = some [[(.system 1, none)], [(.system 2, none)],
        [(.system 3, some (.borrow (viewMut 5) 0 (viewMut 5)))]] :=
  ⟨far_built, rfl⟩

open Ex in
/-- A system can be in a late batch with no reason: the third system is put in the second batch, has no conflict and has to
run after no system. -/
theorem C76_unexplained_fails : Built late ∧ (createWorkload Scheduler.empty late).toOption.map
      (fun c => c.info.batches.map fun b => (batchSystems b).map fun i => (i.name, i.after, i.conflict.isSome))
    = some [[(.system 1, [], false)], [(.system 2, [0], true), (.system 3, [], false)]] :=
  ⟨late_built, rfl⟩

open Ex in
/-- A renamed workload has no information under its new name, and the one under the old name stays. -/
theorem C76_renamed_fails :
    let sch : Scheduler Nat Unit := Scheduler.after [.add demo, .rename (.str 1) (.str 2)]
    (sch.workload (.str 2)).isSome = true ∧ sch.info (.str 2) = none
    ∧ (sch.workload (.str 1)).isSome = false ∧ (sch.info (.str 1)).isSome = true := by
  refine ⟨rfl, rfl, rfl, rfl⟩

end Verif.Sched
