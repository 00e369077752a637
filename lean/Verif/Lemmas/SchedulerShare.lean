import Verif.Spec.SchedulerShare
import Verif.Lemmas.Borrow
import Verif.Lemmas.Registry

/-!
# Invariant of calls about workloads from several threads
-/
namespace Verif.Sched.Share
open Verif.Borrow (Cell Ev Got)

variable {W ε : Type}

/-! ## Counting -/

theorem countP_set {α : Type} (p : α → Bool) (b : α) : ∀ (l : List α) (i : Nat) (a : α), l[i]? = some a →
    (l.set i b).countP p + (p a).toNat = l.countP p + (p b).toNat
  | [], _, _, h => by cases h
  | x :: l, 0, a, h => by
    cases h
    simp only [List.set_cons_zero, List.countP_cons]
    cases p x <;> cases p b <;> simp
  | x :: l, i + 1, a, h => by
    have := countP_set p b l i a h
    simp only [List.set_cons_succ, List.countP_cons]
    omega

theorem countP_pos {α : Type} {p : α → Bool} {l : List α} {i : Nat} {a : α} (h : l[i]? = some a) (hp : p a = true) : 0 < l.countP p :=
  List.countP_pos_iff.mpr ⟨a, List.mem_of_getElem? h, hp⟩

theorem countP_two {α : Type} {p : α → Bool} : ∀ {l : List α} {i j : Nat} {a b : α}, l[i]? = some a → l[j]? = some b → p a = true →
    p b = true → i ≠ j → 1 < l.countP p
  | [], _, _, _, _, h, _, _, _, _ => by cases h
  | x :: l, 0, 0, _, _, _, _, _, _, hn => absurd rfl hn
  | x :: l, 0, j + 1, a, b, h, h', ha, hb, _ => by
    cases h
    have := countP_pos (p := p) (l := l) h' hb
    rw [List.countP_cons, if_pos ha]; omega
  | x :: l, i + 1, 0, a, b, h, h', ha, hb, _ => by
    cases h'
    have := countP_pos (p := p) (l := l) h ha
    rw [List.countP_cons, if_pos hb]; omega
  | x :: l, i + 1, j + 1, a, b, h, h', ha, hb, hn => by
    have := countP_two (p := p) (l := l) h h' ha hb (fun e => hn (by rw [e]))
    rw [List.countP_cons]; omega

/-! ## The invariant -/

/-- The call has the borrow. -/
def Stage.holds : Stage ε → Bool
  | .waiting => false
  | .left _ => false
  | _ => true

def Act.reads (a : Act W ε) : Bool := a.stage.holds && !a.call.op.isSome
def Act.writes (a : Act W ε) : Bool := a.stage.holds && a.call.op.isSome

theorem holds_iff (a : Act W ε) : a.Holds ↔ a.stage.holds = true := by
  unfold Act.Holds Stage.holds
  cases a.stage <;> simp

/-- What call `i` adds to the record. -/
def mine (i : Nat) (a : Act W ε) : List (Nat × RegOp W ε) :=
  match a.call.op with
  | some op => [(i, op)]
  | none => []

/-- The batches of the workload are those of its jobs. -/
def Linked (ops : List (RegOp W ε)) (l : Label) (wl : Workload W ε) (jobs : List (NamedJob W ε)) : Prop :=
  JobsOf ops l wl jobs ∧ ∃ b, (Scheduler.after ops).workload l = some b ∧ b.workloadRunIf = wl.runIf
    ∧ b.seqJobs ((Scheduler.after ops).systemNames.zip (Scheduler.after ops).systems) = jobs.map some

/-- The call is a run of the workload of that name. -/
def CallsFor (ops : List (RegOp W ε)) (c : Call W ε) (l : Label) : Prop :=
  c = .run l ∨ (c = .runDefault ∧ (Registry.after ops).default = some l)

/-- The answer of a call, and what it did. -/
def Answered (a : Act W ε) (o : Out ε) : Prop :=
  let ops := a.began.map (·.2)
  (∃ op, a.call.op = some op ∧ o = answer ops op ∧ a.log = [])
  ∨ (∃ l, a.call = .contains l ∧ o = .told ((Scheduler.after ops).contains l) ∧ a.log = [])
  ∨ (∃ l, a.call = .run l ∧ (Registry.after ops).get l = none ∧ o = .ran (.error .missing) ∧ a.log = [])
  ∨ (a.call = .runDefault ∧ (Registry.after ops).default = none ∧ o = .ran (.ok ()) ∧ a.log = [])
  ∨ ∃ l wl jobs, CallsFor ops a.call l ∧ JobsOf ops l wl jobs ∧ RanAs l wl.runIf jobs a.log o

def ActOk (done : List (Nat × RegOp W ε)) (i : Nat) (a : Act W ε) : Prop :=
  let ops := done.map (·.2)
  match a.stage with
  | .waiting => a.log = []
  | .granted => a.began = done ∧ a.log = []
  | .opening l => a.began = done ∧ a.log = [] ∧ CallsFor ops a.call l ∧ ∃ wl jobs, Linked ops l wl jobs
  | .running l k => a.began = done ∧ CallsFor ops a.call l ∧ ∃ wl jobs pre ds, Linked ops l wl jobs ∧ Opened wl.runIf pre
      ∧ Follows (jobs.take k) ds ∧ a.log = pre ++ ds ∧ k ≤ jobs.length
  | .inside l k => a.began = done ∧ CallsFor ops a.call l ∧ ∃ wl jobs pre ds j w w', Linked ops l wl jobs ∧ Opened wl.runIf pre
      ∧ Follows (jobs.take k) ds ∧ a.log = pre ++ ds ++ [.asked w w'] ∧ jobs[k]? = some j ∧ evalC j.2 w = (w', .ok true)
  | .leaving o => done = a.began ++ mine i a ∧ Answered a o
  | .left o => (o = .refused ∧ a.log = []) ∨ ((∃ rest, done = a.began ++ mine i a ++ rest) ∧ Answered a o)

structure Inv (s : Share W ε) : Prop where
  cell : Borrow.Inv s.cell
  dying : s.cell.dying = 0
  re : s.cell.reborrowed = 0
  shared : s.cell.shared = s.acts.countP Act.reads
  exclusive : s.cell.exclusive = s.acts.countP Act.writes
  sch : s.sch = Scheduler.after (s.done.map (·.2))
  built : AllBuilt (s.done.map (·.2))
  calls : ∀ a ∈ s.acts, ∀ w, a.call = .add w → Built w
  act : ∀ (i : Nat) a, s.acts[i]? = some a → ActOk s.done i a
  source : ∀ p ∈ s.done, ∃ a, s.acts[p.1]? = some a ∧ a.call.op = some p.2 ∧ ∃ o, (a.stage = .leaving o ∨ a.stage = .left o) ∧ Answered a o
  nodup : (s.done.map (·.1)).Nodup

theorem Inv.new (w : W) : Inv (Share.new w : Share W ε) :=
  ⟨Borrow.Inv.new, rfl, rfl, rfl, rfl, rfl, (fun _ h => by cases h), (fun _ h => by cases h), (fun _ _ h => by cases h),
    (fun _ h => by cases h), List.nodup_nil⟩

/-- Everything about the record stays when it grows, for a call that has no borrow. -/
theorem ActOk.mono {done x : List (Nat × RegOp W ε)} {i : Nat} {a : Act W ε} (h : ActOk done i a) (hh : a.stage.holds = false) :
    ActOk (done ++ x) i a := by
  unfold ActOk at h ⊢
  cases hs : a.stage <;> rw [hs] at h hh <;> dsimp only at h ⊢
  case waiting => exact h
  case left o =>
    rcases h with h | ⟨⟨rest, hr⟩, h2⟩
    · exact .inl h
    · exact .inr ⟨⟨rest ++ x, by rw [hr, List.append_assoc]⟩, h2⟩
  all_goals cases hh

/-- A call that changes workloads, while it has its borrow, is alone. -/
theorem Inv.alone {s : Share W ε} (h : Inv s) {i j : Nat} {a b : Act W ε} (ha : s.acts[i]? = some a) (hb : s.acts[j]? = some b)
    (hw : a.writes = true) (hj : b.stage.holds = true) : i = j := by
  have hm := h.cell.mode
  have h1 := countP_pos (p := Act.writes) ha hw
  have he := h.exclusive
  have hsh := h.shared
  by_cases e : i = j
  · exact e
  · exfalso
    by_cases hbo : b.call.op.isSome = true
    · have := countP_two (p := Act.writes) ha hb hw (by unfold Act.writes; rw [hj, hbo]; rfl) e
      omega
    · have := countP_pos (p := Act.reads) hb (by unfold Act.reads; rw [hj]; simpa using hbo)
      omega

theorem known (ops : List (RegOp W ε)) (h : AllBuilt ops) (l : Label) :
    match (Scheduler.after ops).workload l with
    | none => (Registry.after ops).get l = none
    | some _ => ∃ wl jobs, Linked ops l wl jobs := by
  obtain ⟨fnOf, nameOf, hs, ho⟩ := simBy_after ops h
  cases hb : (Scheduler.after ops).workload l with
  | none => exact (hs.absent l).mp hb
  | some b =>
    cases hg : (Registry.after ops).get l with
    | none => rw [(hs.absent l).mpr hg] at hb; cases hb
    | some wl =>
      obtain ⟨_, _, _, plan, _, hr⟩ := hs.present l b wl hb hg
      refine ⟨wl, wl.inOrderBy fnOf nameOf plan, ⟨hg, fnOf, nameOf, plan, ho, hr.schedule, rfl⟩, b, hb, hr.cond, ?_⟩
      rw [hr.seq]
      exact filterMap_some plan _ fun p hp => at_some hr.schedule _ hp

theorem default_known (ops : List (RegOp W ε)) (h : AllBuilt ops) :
    ((Scheduler.after ops).workloads.isEmpty = true ↔ (Registry.after ops).default = none)
    ∧ ∀ d, (Registry.after ops).default = some d → (Scheduler.after ops).default = d ∧ ∃ b, (Scheduler.after ops).workload d = some b := by
  obtain ⟨fnOf, nameOf, hs, ho⟩ := simBy_after ops h
  refine ⟨by rw [List.isEmpty_iff]; exact hs.empty, fun d hd => ?_⟩
  obtain ⟨h1, h2⟩ := hs.default d hd
  refine ⟨h1, ?_⟩
  cases hb : (Scheduler.after ops).workload d with
  | none => exact absurd ((hs.absent d).mp hb) h2
  | some b => exact ⟨b, rfl⟩

/-- The step of call `i` on the content of the cell when the record is `done`. -/
theorem go_ok {done : List (Nat × RegOp W ε)} (hb : AllBuilt (done.map (·.2))) {i : Nat} {a : Act W ε} (h : ActOk done i a) (world : W)
    {r : Res (Went W ε)} (hg : go (Scheduler.after (done.map (·.2))) world a = some r) :
    ∃ sch w st ds, r = .ok (sch, w, st, ds) ∧ st.holds = true
      ∧ sch = Scheduler.after ((done ++ noted i a).map (·.2))
      ∧ (noted i a = [] ∨ ∃ o, st = .leaving o)
      ∧ ActOk (done ++ noted i a) i { a with stage := st, log := a.log ++ ds } := by
  have after_snoc : ∀ op : RegOp W ε, Scheduler.after ((done ++ [(i, op)]).map (·.2)) = (Scheduler.after (done.map (·.2))).step op := by
    intro op
    unfold Scheduler.after
    rw [List.map_append, List.foldl_append]
    rfl
  unfold go at hg
  cases hst : a.stage with
  | waiting => rw [hst] at hg; cases hg
  | leaving o => rw [hst] at hg; cases hg
  | left o => rw [hst] at hg; cases hg
  | granted =>
    rw [hst] at hg
    cases hg
    unfold ActOk at h
    rw [hst] at h
    obtain ⟨hbe, hlog⟩ := h
    have hno : ∀ op, a.call.op = some op → noted i a = [(i, op)] := fun op ho => by unfold noted; rw [hst, ho]
    have hno' : a.call.op = none → noted i a = [] := fun ho => by unfold noted; rw [hst, ho]
    cases hc : a.call with
    | add w =>
      rw [hno _ (by rw [hc]; rfl)]
      refine ⟨_, _, _, _, rfl, rfl, by rw [after_snoc]; rfl, .inr ⟨_, rfl⟩, ?_⟩
      unfold ActOk mine Answered
      dsimp only
      rw [hbe, hlog]
      exact ⟨rfl, .inl ⟨.add w, rfl, rfl, rfl⟩⟩
    | rename o n =>
      rw [hno _ (by rw [hc]; rfl)]
      refine ⟨_, _, _, _, rfl, rfl, by rw [after_snoc]; rfl, .inr ⟨_, rfl⟩, ?_⟩
      unfold ActOk mine Answered
      dsimp only
      rw [hbe, hlog]
      exact ⟨rfl, .inl ⟨.rename o n, rfl, rfl, rfl⟩⟩
    | setDefault l =>
      rw [hno _ (by rw [hc]; rfl), after_snoc]
      unfold first
      dsimp only
      have hans : ∀ x, (Scheduler.after (done.map (·.2))).setDefault l = x →
          ActOk (done ++ [(i, .setDefault l)]) i
            { a with stage := .leaving (.set x.isSome), log := a.log ++ [] } := by
        intro x hx
        unfold ActOk mine Answered
        dsimp only
        rw [hc, hbe, hlog]
        refine ⟨rfl, .inl ⟨.setDefault l, rfl, ?_, rfl⟩⟩
        unfold answer
        dsimp only
        rw [hx]
      cases hsd : (Scheduler.after (done.map (·.2))).setDefault l with
      | none =>
        refine ⟨_, _, _, _, rfl, rfl, ?_, .inr ⟨_, rfl⟩, ?_⟩
        · unfold Scheduler.step; dsimp only; rw [hsd]; rfl
        · have := hans _ hsd; rw [hc] at this; exact this
      | some sch' =>
        refine ⟨_, _, _, _, rfl, rfl, ?_, .inr ⟨_, rfl⟩, ?_⟩
        · unfold Scheduler.step; dsimp only; rw [hsd]; rfl
        · have := hans _ hsd; rw [hc] at this; exact this
    | contains l =>
      rw [hno' (by rw [hc]; rfl), List.append_nil]
      refine ⟨_, _, _, _, rfl, rfl, rfl, .inl rfl, ?_⟩
      unfold ActOk mine Answered
      dsimp only
      rw [hbe, hlog]
      exact ⟨by simp [Call.op], .inr (.inl ⟨l, rfl, rfl, rfl⟩)⟩
    | run l =>
      rw [hno' (by rw [hc]; rfl), List.append_nil]
      have hk := known _ hb l
      unfold first
      dsimp only
      cases hw : (Scheduler.after (done.map (·.2))).workload l with
      | none =>
        rw [hw] at hk
        refine ⟨_, _, _, _, rfl, rfl, rfl, .inl rfl, ?_⟩
        unfold ActOk mine Answered
        dsimp only
        rw [hbe, hlog]
        exact ⟨by simp [Call.op], .inr (.inr (.inl ⟨l, rfl, hk, rfl, rfl⟩))⟩
      | some b =>
        rw [hw] at hk
        refine ⟨_, _, _, _, rfl, rfl, rfl, .inl rfl, ?_⟩
        unfold ActOk
        dsimp only
        rw [hlog]
        exact ⟨hbe, rfl, .inl rfl, hk⟩
    | runDefault =>
      rw [hno' (by rw [hc]; rfl), List.append_nil]
      obtain ⟨hd1, hd2⟩ := default_known _ hb
      unfold first
      dsimp only
      cases hd : (Registry.after (done.map (·.2))).default with
      | none =>
        rw [if_pos (hd1.mpr hd)]
        refine ⟨_, _, _, _, rfl, rfl, rfl, .inl rfl, ?_⟩
        unfold ActOk mine Answered
        dsimp only
        rw [hbe, hlog]
        exact ⟨by simp [Call.op], .inr (.inr (.inr (.inl ⟨rfl, hd, rfl, rfl⟩)))⟩
      | some d =>
        rw [if_neg (fun e => by rw [hd1.mp e] at hd; cases hd)]
        obtain ⟨h1, b, h2⟩ := hd2 d hd
        have h3 : (Scheduler.after (done.map (·.2))).defaultWorkload = .ok b := by
          unfold Scheduler.defaultWorkload
          rw [h1, h2]
        rw [h3]
        refine ⟨_, _, _, _, rfl, rfl, rfl, .inl rfl, ?_⟩
        have hk := known _ hb d
        rw [h2] at hk
        unfold ActOk
        dsimp only
        rw [hlog, h1]
        exact ⟨hbe, rfl, .inr ⟨rfl, hd⟩, hk⟩
  | opening l =>
    rw [hst] at hg
    cases hg
    unfold ActOk at h
    rw [hst] at h
    obtain ⟨hbe, hlog, hcf, wl, jobs, hj, b, hwb, hcond, hseq⟩ := h
    have hlk : Linked (done.map (·.2)) l wl jobs := ⟨hj, b, hwb, hcond, hseq⟩
    have hn : noted i a = [] := by unfold noted; rw [hst]
    have hmine : mine i a = [] := by
      unfold mine
      rcases hcf with e | ⟨e, _⟩ <;> rw [e] <;> rfl
    rw [hn, List.append_nil]
    unfold openUp
    rw [hwb]
    dsimp only
    rw [hcond]
    cases hc : wl.runIf with
    | none =>
      refine ⟨_, _, _, _, rfl, rfl, rfl, .inl rfl, ?_⟩
      unfold ActOk
      dsimp only
      refine ⟨hbe, hcf, wl, jobs, [], [], hlk, .none hc, ?_, by rw [hlog], Nat.zero_le _⟩
      rw [List.take_zero]
      exact .nil
    | some c =>
      dsimp only
      rcases hcw : c world with ⟨w', e | (_ | _)⟩
      · refine ⟨_, _, _, _, rfl, rfl, rfl, .inl rfl, ?_⟩
        unfold ActOk Answered
        dsimp only
        refine ⟨by show done = a.began ++ mine i a; rw [hmine, hbe, List.append_nil], .inr (.inr (.inr (.inr ⟨l, wl, jobs, ?_⟩)))⟩
        rw [hbe, hlog]
        exact ⟨hcf, hj, .conditionErr hc hcw⟩
      · refine ⟨_, _, _, _, rfl, rfl, rfl, .inl rfl, ?_⟩
        unfold ActOk Answered
        dsimp only
        refine ⟨by show done = a.began ++ mine i a; rw [hmine, hbe, List.append_nil], .inr (.inr (.inr (.inr ⟨l, wl, jobs, ?_⟩)))⟩
        rw [hbe, hlog]
        exact ⟨hcf, hj, .closed hc hcw⟩
      · refine ⟨_, _, _, _, rfl, rfl, rfl, .inl rfl, ?_⟩
        unfold ActOk
        dsimp only
        refine ⟨hbe, hcf, wl, jobs, [.condition world w'], [], hlk, .some hc hcw, ?_, by rw [hlog]; rfl, Nat.zero_le _⟩
        rw [List.take_zero]
        exact .nil
  | running l k =>
    rw [hst] at hg
    cases hg
    unfold ActOk at h
    rw [hst] at h
    obtain ⟨hbe, hcf, wl, jobs, pre, ds, ⟨hj, b, hwb, hcond, hseq⟩, hop, hf, hlog, hk⟩ := h
    have hlk : Linked (done.map (·.2)) l wl jobs := ⟨hj, b, hwb, hcond, hseq⟩
    have hn : noted i a = [] := by unfold noted; rw [hst]
    have hmine : mine i a = [] := by
      unfold mine
      rcases hcf with e | ⟨e, _⟩ <;> rw [e] <;> rfl
    rw [hn, List.append_nil]
    unfold ask
    rw [hwb]
    dsimp only
    have hat : (b.seqJobs ((Scheduler.after (done.map (·.2))).systemNames.zip (Scheduler.after (done.map (·.2))).systems))[k]?
        = (jobs.map some)[k]? := by rw [hseq]
    unfold Batches.seqJobs at hat
    rw [List.getElem?_map, List.getElem?_map] at hat
    cases hp : (b.sequential.zip b.sequentialRunIf)[k]? with
    | none =>
      rw [hp] at hat
      have hlen : jobs.length ≤ k := by
        cases hjk : jobs[k]? with
        | none => exact List.getElem?_eq_none_iff.mp hjk
        | some j => rw [hjk] at hat; cases hat
      refine ⟨_, _, _, _, rfl, rfl, rfl, .inl rfl, ?_⟩
      unfold ActOk Answered
      dsimp only
      refine ⟨by show done = a.began ++ mine i a; rw [hmine, hbe, List.append_nil], .inr (.inr (.inr (.inr ⟨l, wl, jobs, ?_⟩)))⟩
      rw [hbe, hlog, List.append_nil]
      rw [List.take_of_length_le hlen] at hf
      exact ⟨hcf, hj, .all hop hf⟩
    | some p =>
      rw [hp] at hat
      cases hjk : jobs[k]? with
      | none => rw [hjk] at hat; cases hat
      | some j =>
        rw [hjk] at hat
        have hjob : b.job ((Scheduler.after (done.map (·.2))).systemNames.zip (Scheduler.after (done.map (·.2))).systems) p.1 p.2 = some j := by
          simpa using hat
        obtain ⟨g1, g2, g3⟩ := job_zip hjob
        dsimp only
        rw [shouldRun_ok g1 g3]
        have hlt : k < jobs.length := (List.getElem?_eq_some_iff.mp hjk).1
        have htake : jobs.take (k + 1) = jobs.take k ++ [j] := by
          rw [List.take_add_one, hjk]; rfl
        have hsplit : jobs = jobs.take k ++ j :: jobs.drop (k + 1) := by
          have h1 : jobs.drop k = j :: jobs.drop (k + 1) := by
            rw [List.drop_eq_getElem_cons hlt]
            congr 1
            exact (List.getElem?_eq_some_iff.mp hjk).2
          rw [← h1, List.take_append_drop]
        rcases hev : evalC j.2 world with ⟨w', e | (_ | _)⟩
        · refine ⟨_, _, _, _, rfl, rfl, rfl, .inl rfl, ?_⟩
          unfold ActOk Answered
          dsimp only
          refine ⟨by show done = a.began ++ mine i a; rw [hmine, hbe, List.append_nil], .inr (.inr (.inr (.inr ⟨l, wl, jobs, ?_⟩)))⟩
          rw [hbe, hlog]
          exact ⟨hcf, hj, .askErr hop hf hsplit hev⟩
        · refine ⟨_, _, _, _, rfl, rfl, rfl, .inl rfl, ?_⟩
          unfold ActOk
          dsimp only
          refine ⟨hbe, hcf, wl, jobs, pre, ds ++ [.asked world w'], hlk, hop, ?_, by rw [hlog, List.append_assoc], hlt⟩
          rw [htake]
          exact .skipped j hf hev
        · refine ⟨_, _, _, _, rfl, rfl, rfl, .inl rfl, ?_⟩
          unfold ActOk
          dsimp only
          exact ⟨hbe, hcf, wl, jobs, pre, ds, j, world, w', hlk, hop, hf, by rw [hlog], hjk, hev⟩
  | inside l k =>
    rw [hst] at hg
    cases hg
    unfold ActOk at h
    rw [hst] at h
    obtain ⟨hbe, hcf, wl, jobs, pre, ds, j, w, w', ⟨hj, b, hwb, hcond, hseq⟩, hop, hf, hlog, hjk, hev⟩ := h
    have hlk : Linked (done.map (·.2)) l wl jobs := ⟨hj, b, hwb, hcond, hseq⟩
    have hn : noted i a = [] := by unfold noted; rw [hst]
    have hmine : mine i a = [] := by
      unfold mine
      rcases hcf with e | ⟨e, _⟩ <;> rw [e] <;> rfl
    rw [hn, List.append_nil]
    unfold exec
    rw [hwb]
    dsimp only
    have hat : (b.seqJobs ((Scheduler.after (done.map (·.2))).systemNames.zip (Scheduler.after (done.map (·.2))).systems))[k]?
        = (jobs.map some)[k]? := by rw [hseq]
    unfold Batches.seqJobs at hat
    rw [List.getElem?_map, List.getElem?_map, hjk] at hat
    cases hp : (b.sequential.zip b.sequentialRunIf)[k]? with
    | none => rw [hp] at hat; cases hat
    | some p =>
      rw [hp] at hat
      have hjob : b.job ((Scheduler.after (done.map (·.2))).systemNames.zip (Scheduler.after (done.map (·.2))).systems) p.1 p.2 = some j := by
        simpa using hat
      obtain ⟨g1, g2, g3⟩ := job_zip hjob
      have hlt : k < jobs.length := (List.getElem?_eq_some_iff.mp hjk).1
      have htake : jobs.take (k + 1) = jobs.take k ++ [j] := by
        rw [List.take_add_one, hjk]; rfl
      have hsplit : jobs = jobs.take k ++ j :: jobs.drop (k + 1) := by
        have h1 : jobs.drop k = j :: jobs.drop (k + 1) := by
          rw [List.drop_eq_getElem_cons hlt]
          congr 1
          exact (List.getElem?_eq_some_iff.mp hjk).2
        rw [← h1, List.take_append_drop]
      dsimp only
      unfold runSingle
      rw [g2]
      dsimp only
      rcases hfn : j.1.2 world with ⟨x', e | u⟩
      · dsimp only
        unfold nameAt
        rw [g1]
        refine ⟨_, _, _, _, rfl, rfl, rfl, .inl rfl, ?_⟩
        unfold ActOk Answered
        dsimp only
        refine ⟨by show done = a.began ++ mine i a; rw [hmine, hbe, List.append_nil], .inr (.inr (.inr (.inr ⟨l, wl, jobs, ?_⟩)))⟩
        rw [hbe, hlog, List.append_assoc]
        exact ⟨hcf, hj, .systemErr hop hf hsplit hev hfn⟩
      · refine ⟨_, _, _, _, rfl, rfl, rfl, .inl rfl, ?_⟩
        unfold ActOk
        dsimp only
        refine ⟨hbe, hcf, wl, jobs, pre, ds ++ [.asked w w', .ran world x'], hlk, hop, ?_,
          by rw [hlog]; simp, hlt⟩
        rw [htake]
        exact .ran j hf hev hfn

/-- A panic of user code. -/
theorem panic_ok {done : List (Nat × RegOp W ε)} {i : Nat} {a : Act W ε} (h : ActOk done i a) (hu : a.stage.user = true) :
    a.call.op = none ∧ ActOk done i { a with stage := .leaving .unwound } := by
  have key : ∀ l, a.began = done → CallsFor (done.map (·.2)) a.call l → a.call.op = none ∧ done = a.began ++ mine i a := by
    intro l hbe hcf
    have : a.call.op = none := by rcases hcf with e | ⟨e, _⟩ <;> rw [e] <;> rfl
    refine ⟨this, ?_⟩
    unfold mine
    rw [this, hbe]
    exact (List.append_nil _).symm
  have take_drop : ∀ (jobs : List (NamedJob W ε)) k, jobs = jobs.take k ++ jobs.drop k := fun jobs k => (List.take_append_drop k jobs).symm
  unfold ActOk at h
  cases hs : a.stage <;> rw [hs] at h hu <;> first | (cases hu; done) | skip
  case opening l =>
    obtain ⟨hbe, hlog, hcf, wl, jobs, hlk⟩ := h
    obtain ⟨k1, k2⟩ := key l hbe hcf
    refine ⟨k1, ?_⟩
    unfold ActOk Answered
    dsimp only
    refine ⟨k2, .inr (.inr (.inr (.inr ⟨l, wl, jobs, ?_⟩)))⟩
    rw [hbe, hlog]
    exact ⟨hcf, hlk.1, .conditionPanic⟩
  case running l k =>
    obtain ⟨hbe, hcf, wl, jobs, pre, ds, hlk, hop, hf, hlog, hk⟩ := h
    obtain ⟨k1, k2⟩ := key l hbe hcf
    refine ⟨k1, ?_⟩
    unfold ActOk Answered
    dsimp only
    refine ⟨k2, .inr (.inr (.inr (.inr ⟨l, wl, jobs, ?_⟩)))⟩
    rw [hbe, hlog]
    exact ⟨hcf, hlk.1, .askPanic hop hf (take_drop jobs k)⟩
  case inside l k =>
    obtain ⟨hbe, hcf, wl, jobs, pre, ds, j, w, w', hlk, hop, hf, hlog, hjk, hev⟩ := h
    obtain ⟨k1, k2⟩ := key l hbe hcf
    refine ⟨k1, ?_⟩
    unfold ActOk Answered
    dsimp only
    refine ⟨k2, .inr (.inr (.inr (.inr ⟨l, wl, jobs, ?_⟩)))⟩
    rw [hbe, hlog]
    have hlt : k < jobs.length := (List.getElem?_eq_some_iff.mp hjk).1
    have hsplit : jobs = jobs.take k ++ j :: jobs.drop (k + 1) := by
      have h1 : jobs.drop k = j :: jobs.drop (k + 1) := by
        rw [List.drop_eq_getElem_cons hlt]
        congr 1
        exact (List.getElem?_eq_some_iff.mp hjk).2
      rw [← h1, List.take_append_drop]
    exact ⟨hcf, hlk.1, .systemPanic hop hf hsplit hev⟩

theorem Inv.act_at {s : Share W ε} (_h : Inv s) {i : Nat} {a a' : Act W ε} (hi : s.acts[i]? = some a) {done : List (Nat × RegOp W ε)}
    (ha : ActOk done i a') (ho : ∀ (j : Nat) b, j ≠ i → s.acts[j]? = some b → ActOk done j b) :
    ∀ (j : Nat) b, (s.acts.set i a')[j]? = some b → ActOk done j b := by
  intro j b hj
  by_cases e : i = j
  · subst e
    rw [List.getElem?_set_self (List.getElem?_eq_some_iff.mp hi).1] at hj
    cases hj
    exact ha
  · rw [List.getElem?_set_ne e] at hj
    exact ho j b (Ne.symm e) hj

/-- What a step does to the other fields. -/
theorem Inv.rest {s : Share W ε} (h : Inv s) {i : Nat} {a a' : Act W ε} (hi : s.acts[i]? = some a) (hc : a'.call = a.call)
    (hs : ∀ o, (a.stage = .leaving o ∨ a.stage = .left o) → Answered a o → (∃ o, (a'.stage = .leaving o ∨ a'.stage = .left o) ∧ Answered a' o)) :
    (∀ b ∈ s.acts.set i a', ∀ w, b.call = .add w → Built w)
    ∧ ∀ p ∈ s.done, ∃ b, (s.acts.set i a')[p.1]? = some b ∧ b.call.op = some p.2
      ∧ ∃ o, (b.stage = .leaving o ∨ b.stage = .left o) ∧ Answered b o := by
  constructor
  · intro b hb w hw
    rcases List.mem_or_eq_of_mem_set hb with hb | rfl
    · exact h.calls b hb w hw
    · exact h.calls a (List.mem_of_getElem? hi) w (hc ▸ hw)
  · intro p hp
    obtain ⟨b, h1, h2, o, h3, h4⟩ := h.source p hp
    by_cases e : i = p.1
    · subst e
      rw [hi] at h1
      cases h1
      rw [List.getElem?_set_self (List.getElem?_eq_some_iff.mp hi).1]
      exact ⟨a', rfl, by rw [hc]; exact h2, hs o h3 h4⟩
    · rw [List.getElem?_set_ne e]
      exact ⟨b, h1, h2, o, h3, h4⟩

theorem dropShared_eq {c c' : Cell} {g : Got} (h : c.step .dropShared = some (c', g)) :
    c'.shared + 1 = c.shared ∧ c'.exclusive = c.exclusive ∧ c'.reborrowed = c.reborrowed ∧ c'.dying = c.dying := by
  unfold Cell.step at h
  generalize Borrow.dropShared c.word = x at h
  dsimp only at h
  split at h
  · cases h
  · cases h
    exact ⟨by dsimp only; omega, rfl, rfl, rfl⟩

theorem dropExclusive_eq {c c' : Cell} {g : Got} (h : c.step .dropExclusive = some (c', g)) :
    c'.shared = c.shared ∧ c'.exclusive + 1 = c.exclusive ∧ c'.reborrowed = c.reborrowed ∧ c'.dying = c.dying := by
  unfold Cell.step at h
  generalize Borrow.dropExclusive c.word = x at h
  dsimp only at h
  split at h
  · cases h
  · cases h
    exact ⟨rfl, by dsimp only; omega, rfl, rfl⟩

theorem Inv.step {s s' : Share W ε} (h : Inv s) (hst : Step s s') : Inv s' := by
  cases hst with
  | call c hc =>
    refine ⟨h.cell, h.dying, h.re, ?_, ?_, h.sch, h.built, ?_, ?_, ?_, h.nodup⟩
    · rw [List.countP_append, h.shared]; rfl
    · rw [List.countP_append, h.exclusive]; rfl
    · intro a ha
      rcases List.mem_append.mp ha with ha | ha
      · exact h.calls a ha
      · cases List.mem_singleton.mp ha
        exact hc
    · intro i a ha
      rcases Nat.lt_or_ge i s.acts.length with hl | hl
      · rw [List.getElem?_append_left hl] at ha
        exact h.act i a ha
      · have hm := List.mem_of_getElem? ha
        rw [List.getElem?_append_right hl] at ha
        cases List.mem_singleton.mp (List.mem_of_getElem? ha)
        unfold ActOk
        rfl
    · intro p hp
      obtain ⟨a, h1, h2⟩ := h.source p hp
      exact ⟨a, by rw [List.getElem?_append_left (List.getElem?_eq_some_iff.mp h1).1]; exact h1, h2⟩
  | @begin a c' i hi hw hsm hc =>
    have hnot : ∀ o, (a.stage = .leaving o ∨ a.stage = .left o) → Answered a o →
        ∃ o', ((Stage.granted : Stage ε) = .leaving o' ∨ (Stage.granted : Stage ε) = .left o') ∧
          Answered { a with stage := .granted, began := s.done } o' := by
      intro o ho; rw [hw] at ho; rcases ho with ho | ho <;> cases ho
    obtain ⟨r1, r2⟩ := h.rest (a' := { a with stage := .granted, began := s.done }) hi rfl hnot
    have hlog : a.log = [] := by
      have := h.act i a hi
      unfold ActOk at this
      rw [hw] at this
      exact this
    have c1 := countP_set Act.reads { a with stage := .granted, began := s.done } s.acts i a hi
    have c2 := countP_set Act.writes { a with stage := .granted, began := s.done } s.acts i a hi
    have e1 : Act.reads a = false := by unfold Act.reads; rw [hw]; rfl
    have e2 : Act.writes a = false := by unfold Act.writes; rw [hw]; rfl
    have hact := h.act_at (a' := { a with stage := .granted, began := s.done }) hi (done := s.done)
      (by unfold ActOk; exact ⟨rfl, hlog⟩) (fun j b _ hj => h.act j b hj)
    have hcell := h.cell.step hsm hc
    rw [e1] at c1
    rw [e2] at c2
    have hm := h.cell.mode
    cases ho : a.call.op.isSome with
    | true =>
      rw [ho] at hc
      have e3 : Act.reads { a with stage := .granted, began := s.done } = false := by unfold Act.reads; simp [Stage.holds, ho]
      have e4 : Act.writes { a with stage := .granted, began := s.done } = true := by unfold Act.writes; simp [Stage.holds, ho]
      rw [e3] at c1
      rw [e4] at c2
      by_cases hg : s.cell.guards = 0
      · rw [if_pos rfl, Borrow.step_write h.cell hg] at hc
        cases hc
        refine ⟨hcell, h.dying, h.re, ?_, ?_, h.sch, h.built, r1, hact, r2, h.nodup⟩
        · have := h.shared; simp only [Bool.toNat_false] at c1; dsimp only; omega
        · have := h.exclusive; simp only [Bool.toNat_true, Bool.toNat_false] at c2; dsimp only; omega
      · rw [if_pos rfl, Borrow.step_write_held h.cell hg] at hc
        cases hc
    | false =>
      rw [ho] at hc
      have e3 : Act.reads { a with stage := .granted, began := s.done } = true := by unfold Act.reads; simp [Stage.holds, ho]
      have e4 : Act.writes { a with stage := .granted, began := s.done } = false := by unfold Act.writes; simp [Stage.holds, ho]
      rw [e3] at c1
      rw [e4] at c2
      by_cases hg : s.cell.exclusive = 0
      · rw [if_neg (by decide), Borrow.step_read h.cell hsm hg] at hc
        cases hc
        refine ⟨hcell, h.dying, h.re, ?_, ?_, h.sch, h.built, r1, hact, r2, h.nodup⟩
        · have := h.shared; simp only [Bool.toNat_true, Bool.toNat_false] at c1; dsimp only; omega
        · have := h.exclusive; simp only [Bool.toNat_false] at c2; dsimp only; omega
      · rw [if_neg (by decide)] at hc
        rcases Borrow.step_read_held h.cell hsm hg with ⟨e, _⟩ | e <;> rw [e] at hc <;> cases hc
  | @refuse a c' i hi hw hsm hc =>
    have hnot : ∀ o, (a.stage = .leaving o ∨ a.stage = .left o) → Answered a o →
        ∃ o', ((Stage.left .refused : Stage ε) = .leaving o' ∨ (Stage.left .refused : Stage ε) = .left o') ∧
          Answered { a with stage := .left .refused } o' := by
      intro o ho; rw [hw] at ho; rcases ho with ho | ho <;> cases ho
    obtain ⟨r1, r2⟩ := h.rest (a' := { a with stage := .left .refused }) hi rfl hnot
    have hlog : a.log = [] := by
      have := h.act i a hi
      unfold ActOk at this
      rw [hw] at this
      exact this
    have c1 := countP_set Act.reads { a with stage := .left .refused } s.acts i a hi
    have c2 := countP_set Act.writes { a with stage := .left .refused } s.acts i a hi
    have e1 : Act.reads a = false := by unfold Act.reads; rw [hw]; rfl
    have e2 : Act.writes a = false := by unfold Act.writes; rw [hw]; rfl
    have e3 : Act.reads { a with stage := .left .refused } = false := rfl
    have e4 : Act.writes { a with stage := .left .refused } = false := rfl
    rw [e1, e3] at c1
    rw [e2, e4] at c2
    have hact := h.act_at (a' := { a with stage := .left .refused }) hi (done := s.done)
      (by unfold ActOk; exact .inl ⟨rfl, hlog⟩) (fun j b _ hj => h.act j b hj)
    have hcell := h.cell.step hsm hc
    have hs := h.shared
    have hx := h.exclusive
    have same : c'.shared = s.cell.shared ∧ c'.exclusive = s.cell.exclusive ∧ c'.reborrowed = s.cell.reborrowed ∧ c'.dying = s.cell.dying := by
      cases ho : a.call.op.isSome with
      | true =>
        rw [ho, if_pos rfl] at hc
        by_cases hg : s.cell.guards = 0
        · rw [Borrow.step_write h.cell hg] at hc; cases hc
        · rw [Borrow.step_write_held h.cell hg] at hc; cases hc; exact ⟨rfl, rfl, rfl, rfl⟩
      | false =>
        rw [ho, if_neg (by decide)] at hc
        by_cases hg : s.cell.exclusive = 0
        · rw [Borrow.step_read h.cell hsm hg] at hc; cases hc
        · rcases Borrow.step_read_held h.cell hsm hg with ⟨e, _⟩ | e <;> rw [e] at hc <;> cases hc
          exact ⟨rfl, rfl, rfl, rfl⟩
    refine ⟨hcell, by rw [same.2.2.2]; exact h.dying, by rw [same.2.2.1]; exact h.re, ?_, ?_, h.sch, h.built, r1, hact, r2, h.nodup⟩
    · dsimp only; rw [same.1]; omega
    · dsimp only; rw [same.2.1]; omega
  | @go a sch w st ds i hi hg =>
    have ha := h.act i a hi
    rw [h.sch] at hg
    obtain ⟨sch', w', st', ds', e, hh, hsch, hlv, hok⟩ := go_ok h.built ha s.world hg
    cases e
    have hah : a.stage.holds = true := by
      unfold Share.go at hg
      cases hs : a.stage <;> rw [hs] at hg <;> first | rfl | cases hg
    have hsame : ∀ p : Act W ε → Bool, (p = Act.reads ∨ p = Act.writes) → p { a with stage := st, log := a.log ++ ds } = p a := by
      rintro p (rfl | rfl)
      · unfold Act.reads; rw [hh, hah]
      · unfold Act.writes; rw [hh, hah]
    have c1 := countP_set Act.reads { a with stage := st, log := a.log ++ ds } s.acts i a hi
    have c2 := countP_set Act.writes { a with stage := st, log := a.log ++ ds } s.acts i a hi
    rw [hsame _ (.inl rfl)] at c1
    rw [hsame _ (.inr rfl)] at c2
    have hs := h.shared
    have hx := h.exclusive
    have hnot : ∀ o, (a.stage = .leaving o ∨ a.stage = .left o) → False := by
      intro o ho
      unfold Share.go at hg
      rcases ho with ho | ho <;> rw [ho] at hg <;> cases hg
    obtain ⟨r1, r2⟩ := h.rest (a' := { a with stage := st, log := a.log ++ ds }) hi rfl (fun o ho => (hnot o ho).elim)
    have hnoted : ∀ p ∈ noted i a, p.1 = i ∧ a.call.op = some p.2 ∧ a.stage = .granted := by
      intro p hp
      unfold noted at hp
      cases hs' : a.stage <;> cases ho : a.call.op <;> rw [hs', ho] at hp <;> first | (cases hp; done) | skip
      rename_i op
      cases List.mem_singleton.mp hp
      exact ⟨rfl, rfl, rfl⟩
    have hact := h.act_at (a' := { a with stage := st, log := a.log ++ ds }) hi hok (fun j b hne hj => by
      rcases hlv with e | ⟨o, e⟩
      · rw [e, List.append_nil]; exact h.act j b hj
      · cases hn : noted i a with
        | nil => rw [List.append_nil]; exact h.act j b hj
        | cons p rest =>
          obtain ⟨_, hp2, hp3⟩ := hnoted p (by rw [hn]; simp)
          refine (h.act j b hj).mono ?_
          cases hb : b.stage.holds with
          | false => rfl
          | true => exact absurd (h.alone hi hj (by unfold Act.writes; rw [hah, hp2]; rfl) hb).symm hne)
    refine ⟨h.cell, h.dying, h.re, by dsimp only; omega, by dsimp only; omega, hsch, ?_, r1, hact, ?_, ?_⟩
    · intro w hw
      rw [List.map_append, List.mem_append] at hw
      rcases hw with hw | hw
      · exact h.built w hw
      · obtain ⟨p, hp, hp'⟩ := List.mem_map.mp hw
        obtain ⟨_, hp2, _⟩ := hnoted p hp
        rw [hp'] at hp2
        refine h.calls a (List.mem_of_getElem? hi) w ?_
        cases hc : a.call <;> rw [hc] at hp2 <;> cases hp2
        rfl
    · intro p hp
      rcases List.mem_append.mp hp with hp | hp
      · exact r2 p hp
      · obtain ⟨hp1, hp2, _⟩ := hnoted p hp
        dsimp only
        rw [hp1, List.getElem?_set_self (List.getElem?_eq_some_iff.mp hi).1]
        rcases hlv with e | ⟨o, e⟩
        · rw [e] at hp; cases hp
        · refine ⟨_, rfl, hp2, o, .inl e, ?_⟩
          unfold ActOk at hok
          rw [e] at hok ⊢
          exact hok.2
    · dsimp only
      rw [List.map_append, List.nodup_append]
      refine ⟨h.nodup, ?_, ?_⟩
      · unfold noted
        split
        · exact List.nodup_cons.mpr ⟨List.not_mem_nil, List.nodup_nil⟩
        · exact List.nodup_nil
      · intro x hx1 y hy1 e
        obtain ⟨p, hp, rfl⟩ := List.mem_map.mp hx1
        obtain ⟨q, hq, rfl⟩ := List.mem_map.mp hy1
        obtain ⟨hq1, _, hq3⟩ := hnoted q hq
        obtain ⟨b, h1, h2, o, h3, _⟩ := h.source p hp
        rw [e, hq1, hi] at h1
        cases h1
        exact hnot o h3
  | @panic a i w hi hu =>
    obtain ⟨hop, hok⟩ := panic_ok (h.act i a hi) hu
    have hah : a.stage.holds = true := by
      cases hs : a.stage <;> rw [hs] at hu <;> first | rfl | cases hu
    have hnot : ∀ o, (a.stage = .leaving o ∨ a.stage = .left o) → False := by
      intro o ho
      rcases ho with ho | ho <;> rw [ho] at hu <;> cases hu
    obtain ⟨r1, r2⟩ := h.rest (a' := { a with stage := .leaving .unwound }) hi rfl (fun o ho => (hnot o ho).elim)
    have c1 := countP_set Act.reads { a with stage := .leaving .unwound } s.acts i a hi
    have c2 := countP_set Act.writes { a with stage := .leaving .unwound } s.acts i a hi
    have e1 : Act.reads { a with stage := .leaving .unwound } = Act.reads a := by unfold Act.reads; rw [hah]; rfl
    have e2 : Act.writes { a with stage := .leaving .unwound } = Act.writes a := by unfold Act.writes; rw [hah]; rfl
    rw [e1] at c1
    rw [e2] at c2
    have hs := h.shared
    have hx := h.exclusive
    exact ⟨h.cell, h.dying, h.re, by dsimp only; omega, by dsimp only; omega, h.sch, h.built, r1,
      h.act_at hi hok (fun j b _ hj => h.act j b hj), r2, h.nodup⟩
  | @leave a o c' g i hi hl hsm hc =>
    have ha := h.act i a hi
    unfold ActOk at ha
    rw [hl] at ha
    obtain ⟨ha1, ha2⟩ := ha
    obtain ⟨r1, r2⟩ := h.rest (a' := { a with stage := .left o }) hi rfl (fun o' ho' hh => by
      refine ⟨o, .inr rfl, ?_⟩
      exact ha2)
    have hact := h.act_at (a' := { a with stage := .left o }) hi (done := s.done)
      (by unfold ActOk; exact .inr ⟨⟨[], by rw [List.append_nil]; exact ha1⟩, ha2⟩) (fun j b _ hj => h.act j b hj)
    have hcell := h.cell.step hsm hc
    have c1 := countP_set Act.reads { a with stage := .left o } s.acts i a hi
    have c2 := countP_set Act.writes { a with stage := .left o } s.acts i a hi
    have e3 : Act.reads { a with stage := .left o } = false := rfl
    have e4 : Act.writes { a with stage := .left o } = false := rfl
    rw [e3] at c1
    rw [e4] at c2
    have hs := h.shared
    have hx := h.exclusive
    cases ho : a.call.op.isSome with
    | true =>
      rw [ho, if_pos rfl] at hc
      have e1 : Act.reads a = false := by unfold Act.reads; rw [ho]; simp
      have e2 : Act.writes a = true := by unfold Act.writes; rw [hl, ho]; rfl
      rw [e1] at c1
      rw [e2] at c2
      simp only [Bool.toNat_true, Bool.toNat_false] at c1 c2
      obtain ⟨d1, d2, d3, d4⟩ := dropExclusive_eq hc
      exact ⟨hcell, by dsimp only; rw [d4]; exact h.dying, by dsimp only; rw [d3]; exact h.re, by dsimp only; omega, by dsimp only; omega,
        h.sch, h.built, r1, hact, r2, h.nodup⟩
    | false =>
      rw [ho, if_neg (by decide)] at hc
      have e1 : Act.reads a = true := by unfold Act.reads; rw [hl, ho]; rfl
      have e2 : Act.writes a = false := by unfold Act.writes; rw [ho]; simp
      rw [e1] at c1
      rw [e2] at c2
      simp only [Bool.toNat_true, Bool.toNat_false] at c1 c2
      obtain ⟨d1, d2, d3, d4⟩ := dropShared_eq hc
      exact ⟨hcell, by dsimp only; rw [d4]; exact h.dying, by dsimp only; rw [d3]; exact h.re, by dsimp only; omega, by dsimp only; omega,
        h.sch, h.built, r1, hact, r2, h.nodup⟩
  | other w => exact ⟨h.cell, h.dying, h.re, h.shared, h.exclusive, h.sch, h.built, h.calls, h.act, h.source, h.nodup⟩

theorem go_not_waiting {sch sch' : Scheduler W ε} {w w' : W} {a : Act W ε} {ds : List (Did W)}
    (h : go sch w a = some (.ok (sch', w', .waiting, ds))) : False := by
  unfold go at h
  cases hs : a.stage <;> rw [hs] at h <;> dsimp only at h <;> try (cases h; done)
  all_goals rw [Option.some.injEq] at h
  · unfold first at h
    cases hc : a.call <;> rw [hc] at h <;> dsimp only at h
    all_goals (repeat' split at h)
    all_goals cases h
  · unfold openUp at h
    repeat' split at h
    all_goals cases h
  · unfold ask at h
    repeat' split at h
    all_goals cases h
  · unfold exec at h
    repeat' split at h
    all_goals cases h

theorem Inv.steps {s s' : Share W ε} (h : Inv s) (hst : Steps s s') : Inv s' := by
  induction hst with
  | refl => exact h
  | tail _ h2 ih => exact ih.step h2

theorem Reach.inv {s : Share W ε} (h : Reach s) : Inv s := by
  obtain ⟨w, h⟩ := h
  exact (Inv.new w).steps h

end Verif.Sched.Share
