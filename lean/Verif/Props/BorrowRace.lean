import Verif.Lemmas.BorrowSafe
import Verif.Lemmas.BorrowActs
import Verif.Props.Workloads
import Verif.Props.Parallel

/-!
# C57: systems of a batch never refuse each other a view
-/
namespace Verif.Borrow

open Verif.Sched (TypeInfo Workload Scheduler Created Built ValidViews Clash Conflicts createWorkload C50_batch_no_conflict C58_workload)

variable {W ε : Type}

/-- The info of a leaf. -/
def infoOf (st : Cells) (l : Nat × Bool) : TypeInfo := { storage := l.1, exclusive := l.2, threadSafe := threadSafe st l.1 l.2 }

theorem leaves_sublist (st : Cells) (rs : List WReq) :
    ((rs.flatMap WReq.leaves).map (infoOf st)).Sublist (rs.flatMap (WReq.infos st)) := by
  induction rs with
  | nil => exact List.Sublist.refl _
  | cons r rs ih =>
    rw [List.flatMap_cons, List.flatMap_cons, List.map_append]
    refine List.Sublist.append ?_ ih
    cases r with
    | views r => exact List.Sublist.refl _
    | allStorages x => simp [WReq.leaves]

theorem info_mem {st : Cells} {rs : List WReq} {l : Nat × Bool} (h : l ∈ rs.flatMap WReq.leaves) :
    infoOf st l ∈ rs.flatMap (WReq.infos st) :=
  (leaves_sublist st rs).subset (List.mem_map.mpr ⟨l, h, rfl⟩)

open Classical in
/-- What a system does with each cell. -/
noncomputable def modeOf (st : Cells) (rs : List WReq) (s : Nat) : Mode :=
  if s = allCell then
    if WReq.allStorages true ∈ rs then .sole else if rs = [] then .nothing else .shared
  else if ∃ l ∈ rs.flatMap WReq.leaves, l.1 = s ∧ (l.2 = true ∨ SoleRead st s) then .sole
  else if ∃ l ∈ rs.flatMap WReq.leaves, l.1 = s then .shared
  else .nothing

theorem alone_all {st : Cells} {main me : Nat} {rs : List WReq} (hp : Plain st main me rs)
    (hv : ValidViews (rs.flatMap (WReq.infos st))) (h : WReq.allStorages true ∈ rs) : rs = [.allStorages true] := by
  have hlen := hv.alone ⟨Sched.allStorages, true, (st.owner allCell).isNone⟩
    (List.mem_flatMap.mpr ⟨_, h, by simp [WReq.infos]⟩) rfl rfl
  have hle : ∀ qs : List WReq, (∀ r ∈ qs, r.infos st ≠ []) → qs.length ≤ (qs.flatMap (WReq.infos st)).length := by
    intro qs
    induction qs with
    | nil => simp
    | cons q qs ih =>
      intro hq
      have h1 := ih (fun r hr => hq r (by simp [hr]))
      have h2 : (q.infos st).length ≠ 0 := fun h0 => hq q (by simp) (List.length_eq_zero_iff.mp h0)
      rw [List.flatMap_cons, List.length_append, List.length_cons]
      omega
  have := hle rs hp.named
  match rs, h with
  | [r], h => rw [List.mem_singleton.mp h]
  | _ :: _ :: _, _ => simp only [List.length_cons] at this; omega

theorem modeOf_needs {st : Cells} {main me : Nat} {rs : List WReq} (hp : Plain st main me rs) (hi : Idle st main)
    (hv : ValidViews (rs.flatMap (WReq.infos st))) :
    Needs st me (modeOf st rs) (rs.flatMap WReq.leaves) Held.zero := by
  have hstorage : ∀ l ∈ rs.flatMap WReq.leaves, l.1 ≠ allCell := by
    intro l hl
    obtain ⟨r, hr, hl⟩ := List.mem_flatMap.mp hl
    exact hp.storage r hr l hl
  have hthread : ∀ l ∈ rs.flatMap WReq.leaves, threadSafe st l.1 l.2 = false → ∀ t, st.owner l.1 = some t → t = me := by
    intro l hl hs t ht
    rw [hi.owner _ t ht, hp.thread ⟨_, info_mem hl, hs⟩]
  have hpw : (rs.flatMap WReq.leaves).Pairwise fun a b => a.1 = b.1 → a.2 = false ∧ b.2 = false := by
    have := hv.shared.sublist (leaves_sublist st rs)
    rw [List.pairwise_map] at this
    exact this
  refine ⟨hstorage, fun l hl hx => ⟨?_, fun t ht => hthread l hl (by simp [threadSafe, hx, ht]) t ht⟩, fun l hl hx => ⟨?_, fun hs => hthread l hl ?_⟩, ?_, fun _ _ _ => ⟨rfl, rfl⟩⟩
  · unfold modeOf
    rw [if_neg (hstorage l hl), if_pos ⟨l, hl, rfl, .inl hx⟩]
  · by_cases hsole : ∃ l' ∈ rs.flatMap WReq.leaves, l'.1 = l.1 ∧ (l'.2 = true ∨ SoleRead st l.1)
    · right
      unfold modeOf
      rw [if_neg (hstorage l hl), if_pos hsole]
    · left
      refine ⟨?_, fun h => hsole ⟨l, hl, rfl, .inr h⟩⟩
      unfold modeOf
      rw [if_neg (hstorage l hl), if_neg hsole, if_pos ⟨l, hl, rfl⟩]
  · simp [threadSafe, hx, hs]
  · rw [List.pairwise_iff_getElem] at hpw ⊢
    have honce := List.pairwise_iff_getElem.mp hp.once
    intro i j h1 h2 hij he hm
    unfold modeOf at hm
    rw [if_neg (hstorage _ (List.getElem_mem h1))] at hm
    split at hm
    · rename_i hex
      obtain ⟨l, hl, hle, hx⟩ := hex
      rcases hx with hx | hx
      · obtain ⟨k, hk, rfl⟩ := List.getElem_of_mem hl
        by_cases hki : k = i
        · subst hki
          have := (hpw k j h1 h2 hij he).1
          rw [hx] at this; cases this
        · rcases Nat.lt_or_gt_of_ne hki with h | h
          · have := (hpw k i hk h1 h hle).1
            rw [hx] at this; cases this
          · have := (hpw i k h1 hk h hle.symm).2
            rw [hx] at this; cases this
      · exact honce i j h1 h2 hij he hx
    · split at hm <;> cases hm

theorem system_safe {st : Cells} {main : Nat} {t : Runner} {rs : List WReq} (hp : Plain st main t.me rs) (hi : Idle st main)
    (hv : ValidViews (rs.flatMap (WReq.infos st))) (hr : Runs t rs) :
    Safe st t.me (modeOf st rs) Held.zero t.todo ∧ t.todo.foldl Held.after Held.zero = Held.zero := by
  obtain ⟨D, hD, hperm⟩ := hr
  rw [hD]
  have hfit : Fit (modeOf st rs) Held.zero := fun s => ⟨fun _ => ⟨rfl, rfl⟩, fun _ => rfl⟩
  have hsafe : Safe st t.me (modeOf st rs) Held.zero (rs.flatMap WReq.acts) := by
    by_cases hmut : WReq.allStorages true ∈ rs
    · have hrs := alone_all hp hv hmut
      subst hrs
      refine ⟨⟨?_, rfl, rfl, fun o ho => ?_⟩, trivial⟩
      · simp [modeOf]
      · rw [hi.owner _ o ho, hp.thread ⟨⟨Sched.allStorages, true, (st.owner allCell).isNone⟩, by simp [WReq.infos], by simp [ho]⟩]
    · refine params_safe rs (fun r hr => ?_) (fun hne => ?_) hi.sync (modeOf_needs hp hi hv)
      · match r with
        | .views r => trivial
        | .allStorages false => trivial
        | .allStorages true => exact (hmut hr).elim
      · unfold modeOf
        rw [if_pos rfl, if_neg hmut, if_neg hne]
  have hgain := params_gains rs Held.zero
  have hdrop : ∀ a ∈ D, a.isDrop := by
    intro a ha
    have ha := hperm.mem_iff.mp ha
    rw [dropsAll_flatMap] at ha
    exact dropsAll_isDrop _ a ha
  have hcount : ∀ s, D.count (.drop s false) = ((rs.flatMap WReq.acts).foldl Held.after Held.zero).s s
      ∧ D.count (.drop s true) = ((rs.flatMap WReq.acts).foldl Held.after Held.zero).x s := by
    intro s
    rw [hperm.count_eq, hperm.count_eq, dropsAll_flatMap, hgain.1, hgain.2]
    have := dropsAll_count (rs.map WReq.whole) s
    simp only [Held.zero]
    omega
  refine ⟨Safe_append.mpr ⟨hsafe, drops_safe (hfit.foldl hsafe) hdrop (fun s => ?_)⟩, ?_⟩
  · have := hcount s
    omega
  · rw [List.foldl_append]
    exact drops_after hdrop hcount

/-- C57: the systems of one batch of a workload run on any threads, their borrows and drops interleaved in any way; no view is held
before. Every borrow any of them ever tries succeeds, and once they are all done no view is held. Their views are those of the systems
(`borrows` is what the parameters declare), `Plain` rules out two kinds of systems, see `C57_unit_fails` and `C57_non_sync_fails`. -/
theorem C57_batch_partial {w : Workload W ε} (hw : Built w) {sch : Scheduler W ε} {c : Created W ε} (h : createWorkload sch w = .ok c)
    {k : Nat} {as : List Nat} (hnd : as.Nodup) (hin : ∀ a ∈ as, c.inBatch a k) (params : Nat → List WReq)
    {st : Cells} {main : Nat} (hok : st.Ok) (hidle : Idle st main) {ts : List Runner} (hlen : ts.length = as.length)
    (hsys : ∀ (i a : Nat) t, as[i]? = some a → ts[i]? = some t → ∃ x, w.systems[a]? = some x
      ∧ x.borrows = (params a).flatMap (WReq.infos st) ∧ Plain st main t.me (params a) ∧ Runs t (params a))
    (hroom : st.Room (remaining ts)) {st' : Cells} {ts' : List Runner} (hrace : Race st ts st' ts') :
    (∀ (i me : Nat) a rest, ts'[i]? = some ⟨me, a :: rest⟩ → ∃ st'', st'.exec me a = .ok (st'', true))
    ∧ ((∀ t ∈ ts', t.todo = []) → ∀ s, (st'.cell s).guards = 0) := by
  have hget : ∀ i, i < ts.length → ∃ a t, as[i]? = some a ∧ ts[i]? = some t := by
    intro i hi
    exact ⟨as[i]'(by omega), ts[i], List.getElem?_eq_getElem (by omega), List.getElem?_eq_getElem hi⟩
  let mode : Nat → Nat → Mode := fun i => match as[i]? with
    | some a => modeOf st (params a)
    | none => fun _ => .nothing
  have hmode : ∀ (i a : Nat), as[i]? = some a → mode i = modeOf st (params a) := by
    intro i a ha
    simp only [mode, ha]
  have hzero : ∀ s, (st.cell s).shared = 0 ∧ (st.cell s).exclusive = 0 ∧ (st.cell s).reborrowed = 0 := by
    intro s
    have := hidle.guards s
    unfold Cell.guards at this
    omega
  have hcompat : Compatible mode ts.length := by
    intro i j s hi hj hij hm
    obtain ⟨a, t, ha, ht⟩ := hget i hi
    obtain ⟨b, u, hb, hu⟩ := hget j hj
    obtain ⟨x, hx, hxb, hpx, _⟩ := hsys i a t ha ht
    obtain ⟨y, hy, hyb, hpy, _⟩ := hsys j b u hb hu
    have hab : a ≠ b := by
      intro e
      subst e
      exact hij ((List.getElem?_inj (by omega) hnd).mp (ha.trans hb.symm))
    have hno := C50_batch_no_conflict hw h hab (hin a (List.mem_of_getElem? ha)) (hin b (List.mem_of_getElem? hb)) hx hy
    rw [hmode i a ha] at hm
    rw [hmode j b hb]
    unfold modeOf at hm ⊢
    by_cases hs : s = allCell
    · rw [if_pos hs] at hm ⊢
      have hall : WReq.allStorages true ∈ params a := by
        refine Classical.byContradiction fun hn => ?_
        rw [if_neg hn] at hm
        split at hm <;> cases hm
      have hnil : params b = [] := by
        refine Classical.byContradiction fun hn => ?_
        obtain ⟨r, rest, hr⟩ := List.exists_cons_of_ne_nil hn
        have hr' : r ∈ params b := by rw [hr]; simp
        obtain ⟨info, _, hinfo⟩ := List.exists_cons_of_ne_nil (hpy.named r hr')
        refine hno ⟨⟨Sched.allStorages, true, (st.owner allCell).isNone⟩, ?_, info, ?_, .allLeft rfl⟩
        · rw [hxb]; exact List.mem_flatMap.mpr ⟨_, hall, by simp [WReq.infos]⟩
        · rw [hyb]; exact List.mem_flatMap.mpr ⟨r, hr', by rw [hinfo]; simp⟩
      rw [hnil]
      simp
    · rw [if_neg hs] at hm ⊢
      have hex : ∃ l ∈ (params a).flatMap WReq.leaves, l.1 = s ∧ (l.2 = true ∨ SoleRead st s) := by
        refine Classical.byContradiction fun hn => ?_
        rw [if_neg hn] at hm
        split at hm <;> cases hm
      obtain ⟨l, hl, rfl, hlx⟩ := hex
      have hnone : ¬ ∃ l' ∈ (params b).flatMap WReq.leaves, l'.1 = l.1 := by
        rintro ⟨l', hl', he⟩
        refine hno ⟨infoOf st l, by rw [hxb]; exact info_mem hl, infoOf st l', by rw [hyb]; exact info_mem hl', ?_⟩
        by_cases h1 : l.2 = true ∨ l'.2 = true
        · exact .share he.symm h1
        · have h2 : l.2 = false := by cases hh : l.2 <;> simp_all
          have h3 : l'.2 = false := by cases hh : l'.2 <;> simp_all
          have h4 : SoleRead st l.1 := hlx.resolve_left (fun h => h1 (.inl h))
          refine .thread ?_ ?_
          · simp [infoOf, threadSafe, h2, h4.1]
          · simp [infoOf, threadSafe, h3, he, h4.1]
      rw [if_neg (fun ⟨l', h1, h2, _⟩ => hnone ⟨l', h1, h2⟩), if_neg hnone]
  have hsafe : ∀ (i : Nat) t, ts[i]? = some t → Safe st t.me (mode i) Held.zero t.todo ∧ t.todo.foldl Held.after Held.zero = Held.zero := by
    intro i t ht
    obtain ⟨a, t', ha, ht'⟩ := hget i (List.getElem?_eq_some_iff.mp ht).1
    rw [ht] at ht'
    cases ht'
    obtain ⟨x, hx, hxb, hp, hr⟩ := hsys i a t ha ht
    have hv := C58_workload hw hx
    rw [hxb] at hv
    rw [hmode i a ha]
    exact system_safe hp hidle hv hr
  have hinit : RaceInv st mode (fun _ => Held.zero) st ts := by
    refine ⟨Good.of hok hroom, rfl, rfl, fun s => ?_, fun s => ?_, fun s => (hzero s).2.2, fun i t ht => (hsafe i t ht).1,
      fun i _ s => ⟨fun _ => ⟨rfl, rfl⟩, fun _ => rfl⟩, fun _ _ _ _ => ⟨rfl, rfl⟩⟩
    · exact (hzero s).1.trans (sumTo_zero (fun _ _ => rfl)).symm
    · exact (hzero s).2.1.trans (sumTo_zero (fun _ _ => rfl)).symm
  obtain ⟨hl, held', hinv, hfin⟩ := race_inv hinit hcompat hrace
  refine ⟨fun i me a rest hi => ?_, fun hdone s => ?_⟩
  · obtain ⟨st'', h1, _⟩ := hinv.step (by rw [hl]; exact hcompat) hi
    exact ⟨st'', h1⟩
  · have hz : ∀ i, i < ts'.length → held' i = Held.zero := by
      intro i hi
      have h1 : ts'[i]? = some ts'[i] := List.getElem?_eq_getElem hi
      have h2 : ts[i]? = some (ts[i]'(by omega)) := List.getElem?_eq_getElem (by omega)
      have h3 := hfin i _ _ h2 h1
      rw [hdone _ (List.getElem_mem hi), (hsafe i _ h2).2] at h3
      exact h3.symm
    unfold Cell.guards
    rw [hinv.shared, hinv.exclusive, hinv.reborrowed, sumTo_zero (fun i hi => by rw [hz i hi]; rfl),
      sumTo_zero (fun i hi => by rw [hz i hi]; rfl)]

/-- C57: the steps of `Race` are those of the borrows of a system. If none is refused the system is given all the views it asks for
(`whole`), with the storages and the mutability it asks for. `Makes`: the uniques it asks for exist and tracking is as declared. -/
theorem C57_acts (rs : List WReq) {st st' : Cells} {me : Nat} (hbase : st.present allCell = true) (hme : st.me = me)
    (hm : ∀ r ∈ rs, ∀ q, r = .views q → q.Makes st) (h : st.execAll me (rs.flatMap WReq.acts) = .ok (st', true)) :
    st.params rs = .ok (st', some (rs.map WReq.whole)) := by
  induction rs generalizing st with
  | nil => cases h; rfl
  | cons r rs ih =>
    rw [List.flatMap_cons] at h
    obtain ⟨st1, h1, h2⟩ := execAll_append h
    have k1 := execAll_keeps hme h1
    have hrest := ih (k1.present _ hbase) (k1.me hme) (fun r hr q hq => Makes.mono q k1 (hm r (by simp [hr]) q hq)) h2
    have hg : ∀ x, st.execAll me [.borrow allCell x] = (st.guard allCell x).bind fun p => .ok (p.1, p.2) := by
      intro x
      simp only [Cells.execAll, Cells.exec, me_eta hme, Cells.create, hbase, if_true]
      cases st.guard allCell x with
      | error e => rfl
      | ok p => obtain ⟨s1, b⟩ := p; cases b <;> rfl
    have hw : st.worldBorrow r = .ok (st1, some r.whole) := by
      cases r with
      | views q =>
        have h1' : st.execAll me ([.borrow allCell false] ++ q.acts) = .ok (st1, true) := h1
        obtain ⟨st0, h3, h4⟩ := execAll_append h1'
        have k0 := execAll_keeps hme h3
        have hq := borrow_of_exec q (k0.me hme) (Makes.mono q k0 (hm _ (by simp) q rfl)) h4
        rw [hg] at h3
        unfold Cells.worldBorrow
        cases hgg : st.guard allCell false with
        | error e => rw [hgg] at h3; cases h3
        | ok p =>
          obtain ⟨s1, b⟩ := p
          rw [hgg] at h3
          cases h3
          exact hq
      | allStorages x =>
        have h1' : st.execAll me [.borrow allCell x] = .ok (st1, true) := h1
        rw [hg] at h1'
        unfold Cells.worldBorrow
        cases hgg : st.guard allCell x with
        | error e => rw [hgg] at h1'; cases h1'
        | ok p =>
          obtain ⟨s1, b⟩ := p
          rw [hgg] at h1'
          cases h1'
          simp only [hgg]
          rfl
    simp only [Cells.params, hw, List.map_cons]
    show ((st1.params rs).bind _) = _
    rw [hrest]
    rfl

/-! ## Examples -/

namespace Ex

open Verif.Sched.Ex

/-- A new world; storage 9 is not `Sync`. -/
def idle : Cells :=
  { cell := fun _ => Cell.new
    present := fun s => s ≤ 1
    owner := fun _ => none
    isSync := fun s => s != 9
    me := 0 }

theorem idle_ok : idle.Ok := ⟨fun _ => ⟨[], .new⟩, fun _ _ => rfl, by decide⟩
theorem idle_idle : Idle idle 0 := ⟨fun _ => rfl, rfl, fun _ _ h => by cases h⟩
theorem idle_room (n : Nat) (h : n < 1000) : idle.Room n :=
  ⟨by unfold HIGH; omega, fun _ => by show 0 + n + 1 < HIGH; unfold HIGH; omega, fun _ => rfl, fun _ h => (h rfl).elim⟩

/-- The parameters of the first two systems of `pdemo`: `ViewMut` of 5; a tuple of `View` of 6 and `ViewMut` of 7. -/
def pparams : Nat → List WReq
  | 0 => [.views (.view 5 true true true)]
  | _ => [.views (.tuple [.view 6 false true true, .view 7 true true true])]

def prunners : List Runner :=
  [⟨3, (pparams 0).flatMap WReq.acts ++ ((pparams 0).map WReq.whole).flatMap View.drops⟩,
   ⟨4, (pparams 1).flatMap WReq.acts ++ ((pparams 1).map WReq.whole).flatMap View.drops⟩]

/-- The hypotheses of C57 are met by `pdemo`, whose first two systems are in batch 0. -/
example : ∃ c, createWorkload Scheduler.empty pdemo = .ok c ∧ c.inBatch 0 0 ∧ c.inBatch 1 0
    ∧ ∀ st' ts', Race idle prunners st' ts' →
      ∀ (i me : Nat) a rest, ts'[i]? = some ⟨me, a :: rest⟩ → ∃ st'', st'.exec me a = .ok (st'', true) := by
  obtain ⟨c, hc, hplan, _⟩ := pdemo_created
  have h0 : c.inBatch 0 0 := by unfold Created.inBatch; rw [hplan]; simp
  have h1 : c.inBatch 1 0 := by unfold Created.inBatch; rw [hplan]; simp
  refine ⟨c, hc, h0, h1, fun st' ts' hr => ?_⟩
  refine (C57_batch_partial (as := [0, 1]) (k := 0) pdemo_built hc (by simp) (by simp [h0, h1]) pparams idle_ok idle_idle
    (ts := prunners) rfl ?_ (idle_room _ (by decide)) hr).1
  intro i a t ha ht
  match i with
  | 0 =>
    cases ha; cases ht
    exact ⟨_, rfl, rfl, ⟨by decide, by simp [pparams, WReq.leaves, Req.leaves], by simp [pparams, WReq.leaves, Req.leaves, allCell],
      fun ⟨t, ht, h⟩ => by
        simp [pparams, WReq.infos, Req.leaves, threadSafe, idle] at ht; subst ht; cases h⟩, ⟨_, rfl, List.Perm.refl _⟩⟩
  | 1 =>
    cases ha; cases ht
    refine ⟨_, rfl, rfl, ⟨by simp [pparams, WReq.infos, Req.leaves, Req.leavesAll], ?_, ?_, fun ⟨t, ht, h⟩ => ?_⟩,
      ⟨_, rfl, List.Perm.refl _⟩⟩
    · simp [pparams, WReq.leaves, Req.leaves, Req.leavesAll]
    · simp [pparams, WReq.leaves, Req.leaves, Req.leavesAll, allCell]
      omega
    · simp [pparams, WReq.infos, Req.leaves, Req.leavesAll, threadSafe, idle] at ht
      rcases ht with rfl | rfl <;> cases h
  | n + 2 => cases ha

/-- One system with two `NonSync<View>` of storage 9. -/
def twice : Wl := (Workload.new (.str 1)).withSystem (sys 1 ([WReq.views (.view 9 false true true), .views (.view 9 false true true)].flatMap (WReq.infos idle)))

end Ex

/-- C57 fails for a system with two shared views of a `Send` and not `Sync` component: the workload is accepted, but the system can never
borrow its views, even alone: `exclusive_read` refuses the second one (`src/advanced/atomic_refcell.rs:71-86`). -/
theorem C57_non_sync_fails :
    Built Ex.twice ∧ (∃ c, createWorkload Scheduler.empty Ex.twice = .ok c)
    ∧ ∃ st', Ex.idle.params [.views (.view 9 false true true), .views (.view 9 false true true)] = .ok (st', none) := by
  refine ⟨.withSystem (.new _ trivial) (Sched.Ex.sys_fresh _ _ rfl), ?_, ⟨_, rfl⟩⟩
  have h : (createWorkload Scheduler.empty Ex.twice).toOption.isSome = true := by rfl
  cases hc : createWorkload Scheduler.empty Ex.twice with
  | error e => rw [hc] at h; cases h
  | ok c => exact ⟨c, rfl⟩

namespace Ex

open Verif.Sched.Ex

/-- A system with `AllStoragesViewMut` and one with `()`. -/
def unitDemo : Wl :=
  ((Workload.new (.str 1)).withSystem (sys 1 ([WReq.allStorages true].flatMap (WReq.infos idle)))).withSystem
    (sys 2 ([WReq.views .unit].flatMap (WReq.infos idle)))

end Ex

/-- C57 fails for systems with a `()` parameter (or `Nothing`): it declares no view, so the system can be in the batch of one with
`AllStoragesViewMut`, but borrowing it borrows `AllStorages`. Here the first system has its view and the second cannot borrow. -/
theorem C57_unit_fails :
    Built Ex.unitDemo ∧ (∃ c, createWorkload Scheduler.empty Ex.unitDemo = .ok c ∧ c.inBatch 0 0 ∧ c.inBatch 1 0)
    ∧ ∃ st' st'', Race Ex.idle [⟨0, (WReq.allStorages true).acts⟩, ⟨1, (WReq.views .unit).acts⟩] st'
          [⟨0, []⟩, ⟨1, (WReq.views .unit).acts⟩]
        ∧ st'.exec 1 (.borrow allCell false) = .ok (st'', false) := by
  refine ⟨.withSystem (.withSystem (.new _ trivial) (Sched.Ex.sys_fresh _ _ rfl)) (Sched.Ex.sys_fresh _ _ rfl), ?_, ?_⟩
  · have h : (createWorkload Scheduler.empty Ex.unitDemo).toOption.map (fun c => c.plan) = some [(0, 0), (1, 0)] := by rfl
    cases hc : createWorkload Scheduler.empty Ex.unitDemo with
    | error e => rw [hc] at h; cases h
    | ok c =>
      rw [hc] at h
      have := Option.some.inj h
      dsimp only at this
      refine ⟨c, rfl, ?_, ?_⟩ <;> (unfold Created.inBatch; rw [this]; simp)
  · exact ⟨_, _, .step (i := 0) .refl rfl rfl, rfl⟩

end Verif.Borrow
