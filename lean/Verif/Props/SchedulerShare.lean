import Verif.Lemmas.SchedulerShare
import Verif.Props.Running

/-!
# C93: calls about workloads from several threads
-/
namespace Verif.Sched.Share
open Verif.Borrow (Cell Ev Got)

variable {W ε : Type}

/-- No step of a call finds the workloads otherwise than it left them: the batches a run has a reference to are there. -/
theorem C93_safe {s : Share W ε} (h : Reach s) {i : Nat} {a : Act W ε} (hi : s.acts[i]? = some a) {r : Res (Went W ε)}
    (hg : go s.sch s.world a = some r) : ∃ x, r = .ok x := by
  have hv := h.inv
  rw [hv.sch] at hg
  obtain ⟨_, _, _, _, e, _⟩ := go_ok hv.built (hv.act i a hi) s.world hg
  exact ⟨_, e⟩

/-- What becomes of a call. -/
theorem step_act {s s' : Share W ε} (hst : Step s s') {i : Nat} {a : Act W ε} (hi : s.acts[i]? = some a) :
    ∃ a', s'.acts[i]? = some a' ∧ a'.call = a.call
      ∧ (a' = a
        ∨ (a.stage = .waiting ∧ a' = { a with stage := .granted, began := s.done } ∧ s'.sch = s.sch ∧ s'.done = s.done ∧ Borrow.Small s.cell
            ∧ ∃ c', s.cell.step (if a.call.op.isSome then .write else .read) = some (c', .guard))
        ∨ (a.stage = .waiting ∧ a' = { a with stage := .left .refused } ∧ s'.sch = s.sch ∧ s'.done = s.done ∧ s'.world = s.world
            ∧ Borrow.Small s.cell ∧ ∃ c', s.cell.step (if a.call.op.isSome then .write else .read) = some (c', .error))
        ∨ (a.Holds ∧ a'.began = a.began ∧ a'.stage ≠ .waiting)) := by
  have hl := (List.getElem?_eq_some_iff.mp hi).1
  have key : ∀ (j : Nat) (b b' : Act W ε), s.acts[j]? = some b → b'.call = b.call →
      ∃ a', (s.acts.set j b')[i]? = some a' ∧ a'.call = a.call ∧ ((j ≠ i ∧ a' = a) ∨ (j = i ∧ b = a ∧ a' = b')) := by
    intro j b b' hj hc
    by_cases e : j = i
    · subst e
      rw [hi] at hj
      cases hj
      exact ⟨b', List.getElem?_set_self hl, hc, .inr ⟨rfl, rfl, rfl⟩⟩
    · exact ⟨a, by rw [List.getElem?_set_ne e]; exact hi, rfl, .inl ⟨e, rfl⟩⟩
  cases hst with
  | call c hc => exact ⟨a, by rw [List.getElem?_append_left hl]; exact hi, rfl, .inl rfl⟩
  | @begin b c' j hj hw hsm hc =>
    obtain ⟨a', h1, h2, h3 | ⟨rfl, rfl, h3⟩⟩ := key j b { b with stage := .granted, began := s.done } hj rfl
    · exact ⟨a', h1, h2, .inl h3.2⟩
    · exact ⟨a', h1, h2, .inr (.inl ⟨hw, h3, rfl, rfl, hsm, c', hc⟩)⟩
  | @refuse b c' j hj hw hsm hc =>
    obtain ⟨a', h1, h2, h3 | ⟨rfl, rfl, h3⟩⟩ := key j b { b with stage := .left .refused } hj rfl
    · exact ⟨a', h1, h2, .inl h3.2⟩
    · exact ⟨a', h1, h2, .inr (.inr (.inl ⟨hw, h3, rfl, rfl, rfl, hsm, c', hc⟩))⟩
  | @go b sch w st ds j hj hg =>
    obtain ⟨a', h1, h2, h3 | ⟨rfl, rfl, h3⟩⟩ := key j b { b with stage := st, log := b.log ++ ds } hj rfl
    · exact ⟨a', h1, h2, .inl h3.2⟩
    · refine ⟨a', h1, h2, .inr (.inr (.inr ⟨?_, by rw [h3], ?_⟩))⟩
      · unfold Share.go at hg
        unfold Act.Holds
        cases hs : b.stage <;> rw [hs] at hg <;> first | exact trivial | cases hg
      · rw [h3]
        intro e
        dsimp only at e
        subst e
        exact go_not_waiting hg
  | @panic b j w hj hu =>
    obtain ⟨a', h1, h2, h3 | ⟨rfl, rfl, h3⟩⟩ := key j b { b with stage := .leaving .unwound } hj rfl
    · exact ⟨a', h1, h2, .inl h3.2⟩
    · refine ⟨a', h1, h2, .inr (.inr (.inr ⟨?_, by rw [h3], by rw [h3]; exact fun e => by cases e⟩))⟩
      unfold Act.Holds
      cases hs : b.stage <;> rw [hs] at hu <;> first | exact trivial | cases hu
  | @leave b o c' g j hj hlv hsm hc =>
    obtain ⟨a', h1, h2, h3 | ⟨rfl, rfl, h3⟩⟩ := key j b { b with stage := .left o } hj rfl
    · exact ⟨a', h1, h2, .inl h3.2⟩
    · refine ⟨a', h1, h2, .inr (.inr (.inr ⟨?_, by rw [h3], by rw [h3]; exact fun e => by cases e⟩))⟩
      unfold Act.Holds
      rw [hlv]
      trivial
  | other w => exact ⟨a, hi, rfl, .inl rfl⟩

theorem held {s : Share W ε} (h : Inv s) :
    (s.cell.exclusive = 0 ↔ ¬ ∃ (j : Nat) (b : Act W ε), s.acts[j]? = some b ∧ b.Holds ∧ b.call.Changes)
    ∧ (s.cell.guards = 0 ↔ ¬ ∃ (j : Nat) (b : Act W ε), s.acts[j]? = some b ∧ b.Holds) := by
  have hx := h.exclusive
  have hs := h.shared
  have hr := h.re
  have ch : ∀ b : Act W ε, b.call.Changes ↔ b.call.op.isSome = true := by
    intro b
    unfold Call.Changes
    rw [Option.isSome_iff_exists]
  constructor
  · rw [hx, List.countP_eq_zero]
    constructor
    · rintro h0 ⟨j, b, hb, hh, hc⟩
      refine h0 b (List.mem_of_getElem? hb) ?_
      unfold Act.writes
      rw [(holds_iff b).mp hh, (ch b).mp hc]
      rfl
    · intro h0 b hb hw
      obtain ⟨j, hj⟩ := List.getElem?_of_mem hb
      unfold Act.writes at hw
      rw [Bool.and_eq_true] at hw
      exact h0 ⟨j, b, hj, (holds_iff b).mpr hw.1, (ch b).mpr hw.2⟩
  · unfold Cell.guards
    constructor
    · rintro h0 ⟨j, b, hb, hh⟩
      have hh := (holds_iff b).mp hh
      cases hc : b.call.op.isSome with
      | true =>
        have := countP_pos (p := Act.writes) hb (by unfold Act.writes; rw [hh, hc]; rfl)
        omega
      | false =>
        have := countP_pos (p := Act.reads) hb (by unfold Act.reads; rw [hh, hc]; rfl)
        omega
    · intro h0
      have no : ∀ b ∈ s.acts, b.stage.holds = false := by
        intro b hb
        obtain ⟨j, hj⟩ := List.getElem?_of_mem hb
        cases hh : b.stage.holds with
        | false => rfl
        | true => exact absurd ⟨j, b, hj, (holds_iff b).mpr hh⟩ h0
      have h1 : s.acts.countP Act.reads = 0 := List.countP_eq_zero.mpr fun b hb => by unfold Act.reads; rw [no b hb]; simp
      have h2 : s.acts.countP Act.writes = 0 := List.countP_eq_zero.mpr fun b hb => by unfold Act.writes; rw [no b hb]; simp
      omega

/-- Some other call that is in progress does not go together with the call: one of the two changes workloads. -/
def Blocked (s : Share W ε) (a : Act W ε) : Prop :=
  ∃ (j : Nat) (b : Act W ε), s.acts[j]? = some b ∧ b.Holds ∧ (a.call.Changes ∨ b.call.Changes)

theorem blocked_cell {s : Share W ε} (h : Inv s) (hs : Borrow.Small s.cell) (a : Act W ε) :
    (Blocked s a → ∀ c', s.cell.step (if a.call.op.isSome then .write else .read) ≠ some (c', .guard))
    ∧ (¬ Blocked s a → ∃ c', s.cell.step (if a.call.op.isSome then .write else .read) = some (c', .guard)) := by
  obtain ⟨h1, h2⟩ := held h
  cases ho : a.call.op.isSome with
  | true =>
    have hch : a.call.Changes := Option.isSome_iff_exists.mp ho
    rw [if_pos rfl]
    constructor
    · rintro ⟨j, b, hj, hh, _⟩ c' e
      rw [Borrow.step_write_held h.cell (fun e => (h2.mp e) ⟨j, b, hj, hh⟩)] at e
      cases e
    · intro hn
      have : s.cell.guards = 0 := h2.mpr fun ⟨j, b, hj, hh⟩ => hn ⟨j, b, hj, hh, .inl hch⟩
      exact ⟨_, Borrow.step_write h.cell this⟩
  | false =>
    have hch : ¬ a.call.Changes := fun ⟨op, e⟩ => by rw [e] at ho; cases ho
    rw [if_neg (by decide)]
    constructor
    · rintro ⟨j, b, hj, hh, hc⟩ c' e
      have hc : b.call.Changes := hc.resolve_left hch
      rcases Borrow.step_read_held h.cell hs (fun e => (h1.mp e) ⟨j, b, hj, hh, hc⟩) with ⟨e', _⟩ | e' <;> rw [e'] at e <;> cases e
    · intro hn
      have : s.cell.exclusive = 0 := h1.mpr fun ⟨j, b, hj, hh, hc⟩ => hn ⟨j, b, hj, hh, .inr hc⟩
      exact ⟨_, Borrow.step_read h.cell hs this⟩

/-- A call that is made gets the workloads exactly when no call in progress stands in its way. -/
theorem C93_begin {s : Share W ε} (h : Reach s) (hs : Borrow.Small s.cell) {i : Nat} {a : Act W ε} (hi : s.acts[i]? = some a)
    (hw : a.stage = .waiting) :
    (∃ s' a', Step s s' ∧ s'.acts[i]? = some a' ∧ a'.stage = .granted) ↔ ¬ Blocked s a := by
  obtain ⟨b1, b2⟩ := blocked_cell h.inv hs a
  constructor
  · rintro ⟨s', a', hst, ha', hg⟩ hb
    obtain ⟨a'', h1, _, h2⟩ := step_act hst hi
    rw [ha'] at h1
    cases h1
    rcases h2 with e | ⟨_, _, _, _, _, c', e⟩ | ⟨_, e, _⟩ | ⟨e, _⟩
    · rw [e, hw] at hg; cases hg
    · exact b1 hb c' e
    · rw [e] at hg; cases hg
    · unfold Act.Holds at e
      rw [hw] at e
      exact e
  · intro hb
    obtain ⟨c', e⟩ := b2 hb
    exact ⟨_, _, .begin i hi hw hs e, List.getElem?_set_self (List.getElem?_eq_some_iff.mp hi).1, rfl⟩

/-- A call is refused only when a call in progress stands in its way, and then it has changed nothing: not the workloads, not the
world. -/
theorem C93_refused {s s' : Share W ε} (h : Reach s) (hst : Step s s') {i : Nat} {a a' : Act W ε} {o : Out ε} (hi : s.acts[i]? = some a)
    (hw : a.stage = .waiting) (ha' : s'.acts[i]? = some a') (ho : a'.stage = .left o) :
    o = .refused ∧ Blocked s a ∧ s'.sch = s.sch ∧ s'.done = s.done ∧ s'.world = s.world ∧ a'.log = [] := by
  obtain ⟨a'', h1, _, h2⟩ := step_act hst hi
  rw [ha'] at h1
  cases h1
  rcases h2 with e | ⟨_, e, _⟩ | ⟨_, e, e1, e2, e3, hs, c', e4⟩ | ⟨e, _⟩
  · rw [e, hw] at ho; cases ho
  · rw [e] at ho; cases ho
  · refine ⟨?_, ?_, e1, e2, e3, ?_⟩
    · rw [e] at ho; cases ho; rfl
    · apply Classical.byContradiction
      intro hb
      obtain ⟨c'', e5⟩ := (blocked_cell h.inv hs a).2 hb
      rw [e4] at e5
      cases e5
    · have := h.inv.act i a hi
      unfold ActOk at this
      rw [hw] at this
      rw [e]
      exact this
  · unfold Act.Holds at e
    rw [hw] at e
    exact e.elim

/-- While a workload runs (or any call that only looks at workloads is in progress), calls that look at workloads are not refused and calls that
change them do not get them. -/
theorem C93_while {s s' : Share W ε} (h : Reach s) (hst : Step s s') {i j : Nat} {a a' b : Act W ε} (hj : s.acts[j]? = some b)
    (hb : b.Holds) (hbc : ¬ b.call.Changes) (hi : s.acts[i]? = some a) (hw : a.stage = .waiting) (ha' : s'.acts[i]? = some a') :
    (a.call.Changes → a'.stage ≠ .granted) ∧ (¬ a.call.Changes → a'.stage ≠ .left .refused) := by
  constructor
  · intro hc hg
    obtain ⟨a'', h1, _, h2⟩ := step_act hst hi
    rw [ha'] at h1
    cases h1
    rcases h2 with e | ⟨_, _, _, _, hs, _⟩ | ⟨_, e, _⟩ | ⟨e, _⟩
    · rw [e, hw] at hg; cases hg
    · exact (C93_begin h hs hi hw).mp ⟨s', a', hst, ha', hg⟩ ⟨j, b, hj, hb, .inl hc⟩
    · rw [e] at hg; cases hg
    · unfold Act.Holds at e
      rw [hw] at e
      exact e
  · intro hc hg
    obtain ⟨_, ⟨k, d, hk, hd, hdc⟩, _⟩ := C93_refused h hst hi hw ha' hg
    have hdc := hdc.resolve_left hc
    obtain ⟨op, hop⟩ := hdc
    have := h.inv.alone hk hj (by unfold Act.writes; rw [(holds_iff d).mp hd, hop]; rfl) ((holds_iff b).mp hb)
    subst this
    rw [hk] at hj
    cases hj
    exact hbc ⟨op, hop⟩

/-- What becomes of a call after any number of steps. -/
theorem steps_act {s s' : Share W ε} (hst : Steps s s') {i : Nat} {a : Act W ε} (hi : s.acts[i]? = some a) :
    ∃ a', s'.acts[i]? = some a' ∧ a'.call = a.call ∧ (a.stage ≠ .waiting → a'.stage ≠ .waiting ∧ a'.began = a.began) := by
  induction hst with
  | refl => exact ⟨a, hi, rfl, fun h => ⟨h, rfl⟩⟩
  | tail _ h2 ih =>
    obtain ⟨b, h3, h4, h5⟩ := ih
    obtain ⟨b', h6, h7, h8⟩ := step_act h2 h3
    refine ⟨b', h6, h7.trans h4, fun hn => ?_⟩
    obtain ⟨h9, h10⟩ := h5 hn
    rcases h8 with e | ⟨e, _⟩ | ⟨e, _⟩ | ⟨_, e, e'⟩
    · rw [e]; exact ⟨h9, h10⟩
    · exact absurd e h9
    · exact absurd e h9
    · exact ⟨e', e.trans h10⟩

theorem Reach.steps {s s' : Share W ε} (h : Reach s) (hst : Steps s s') : Reach s' := by
  obtain ⟨w, h⟩ := h
  refine ⟨w, ?_⟩
  induction hst with
  | refl => exact h
  | tail _ h2 ih => exact .tail ih h2

/-- A call that has the workloads and does not change them saw the changes recorded so far. -/
theorem Inv.seen {s : Share W ε} (h : Inv s) {i : Nat} {a : Act W ε} (hi : s.acts[i]? = some a) (hh : a.Holds) (hc : ¬ a.call.Changes) :
    a.began = s.done := by
  have ha := h.act i a hi
  have hm : mine i a = [] := by
    unfold mine
    cases ho : a.call.op with
    | none => rfl
    | some op => exact absurd ⟨op, ho⟩ hc
  unfold ActOk at ha
  unfold Act.Holds at hh
  cases hs : a.stage <;> rw [hs] at ha hh <;> dsimp only at ha hh
  case leaving o => rw [ha.1, hm, List.append_nil]
  all_goals exact ha.1

/-- From when a workload starts to run to when its run is over, the workloads of the world do not change. -/
theorem C93_unchanged {s s' : Share W ε} (h : Reach s) (hst : Steps s s') {i : Nat} {a a' : Act W ε} (hi : s.acts[i]? = some a)
    (hh : a.Holds) (hc : ¬ a.call.Changes) (hi' : s'.acts[i]? = some a') (hh' : a'.Holds) : s'.sch = s.sch ∧ s'.done = s.done := by
  obtain ⟨b, h1, h2, h3⟩ := steps_act hst hi
  rw [hi'] at h1
  cases h1
  have hn : a.stage ≠ .waiting := fun e => by unfold Act.Holds at hh; rw [e] at hh; exact hh
  have hv := h.inv
  have hv' := (h.steps hst).inv
  have e1 := hv.seen hi hh hc
  have e2 := hv'.seen hi' hh' (by rw [h2]; exact hc)
  have e3 : s'.done = s.done := by rw [← e1, ← e2]; exact (h3 hn).2
  exact ⟨by rw [hv'.sch, hv.sch, e3], e3⟩

theorem answered_not_refused {a : Act W ε} {o : Out ε} (h : Answered a o) : o ≠ .refused := by
  rintro rfl
  unfold Answered at h
  rcases h with ⟨op, _, h, _⟩ | ⟨l, _, h, _⟩ | ⟨l, _, _, h, _⟩ | ⟨_, _, h, _⟩ | ⟨l, wl, jobs, _, _, h⟩
  · unfold answer at h; cases op <;> cases h
  · cases h
  · cases h
  · cases h
  · generalize a.log = x at h
    cases h

/-- The workloads are what the calls that changed them, one after the other, make of them: each such call that was not refused did so
exactly once and answered what it answers alone at its place; those refused did nothing. -/
theorem C93_calls {s : Share W ε} (h : Reach s) :
    s.sch = Scheduler.after (s.done.map (·.2)) ∧ (s.done.map (·.1)).Nodup
    ∧ (∀ p ∈ s.done, ∃ a, s.acts[p.1]? = some a ∧ a.call.op = some p.2)
    ∧ ∀ (i : Nat) (a : Act W ε) (op : RegOp W ε) (o : Out ε), s.acts[i]? = some a → a.call.op = some op → a.stage = .left o →
      (o = .refused ∧ i ∉ s.done.map (·.1))
      ∨ ∃ before later, s.done = before ++ (i, op) :: later ∧ o = answer (before.map (·.2)) op := by
  have hv := h.inv
  refine ⟨hv.sch, hv.nodup, fun p hp => ?_, fun i a op o hi hop hl => ?_⟩
  · obtain ⟨a, h1, h2, _⟩ := hv.source p hp
    exact ⟨a, h1, h2⟩
  · have ha := hv.act i a hi
    unfold ActOk at ha
    rw [hl] at ha
    rcases ha with ⟨rfl, _⟩ | ⟨⟨rest, hr⟩, ha⟩
    · refine .inl ⟨rfl, fun hm => ?_⟩
      obtain ⟨p, hp, rfl⟩ := List.mem_map.mp hm
      obtain ⟨b, h1, _, o, h3, h4⟩ := hv.source p hp
      rw [hi] at h1
      cases h1
      rw [hl] at h3
      rcases h3 with h3 | h3 <;> cases h3
      exact answered_not_refused h4 rfl
    · refine .inr ⟨a.began, rest, ?_, ?_⟩
      · rw [hr]
        unfold mine
        rw [hop]
        simp
      · rcases ha with ⟨op', h1, h2, _⟩ | ⟨l, h1, _⟩ | ⟨l, h1, _⟩ | ⟨h1, _⟩ | ⟨l, wl, jobs, h1, _⟩
        · rw [hop] at h1; cases h1; exact h2
        · rw [h1] at hop; cases hop
        · rw [h1] at hop; cases hop
        · rw [h1] at hop; cases hop
        · rcases h1 with h1 | ⟨h1, _⟩ <;> rw [h1] at hop <;> cases hop

theorem steps_done {s s' : Share W ε} (hst : Steps s s') : ∃ rest, s'.done = s.done ++ rest := by
  induction hst with
  | refl => exact ⟨[], (List.append_nil _).symm⟩
  | tail _ h2 ih =>
    obtain ⟨rest, e⟩ := ih
    cases h2 with
    | @go a sch w st ds i hi hg => exact ⟨rest ++ noted i a, by dsimp only; rw [e, List.append_assoc]⟩
    | _ => exact ⟨rest, e⟩

/-- The order agrees with time: a call that was over before another one was made (or got the workloads) comes before it. -/
theorem C93_order {s s' : Share W ε} (h : Reach s) (hst : Steps s s') {i j : Nat} {a : Act W ε} {opi opj : RegOp W ε} {o : Out ε}
    (hi : s.acts[i]? = some a) (hop : a.call.op = some opi) (hl : a.stage = .left o) (ho : o ≠ .refused)
    (hj : ∀ b, s.acts[j]? = some b → b.stage = .waiting) (hd : (j, opj) ∈ s'.done) :
    ∃ x y z, s'.done = x ++ (i, opi) :: y ++ (j, opj) :: z := by
  obtain ⟨_, _, _, hc⟩ := C93_calls h
  rcases hc i a opi o hi hop hl with ⟨e, _⟩ | ⟨x, y, e, _⟩
  · exact absurd e ho
  · obtain ⟨rest, e'⟩ := steps_done hst
    rw [e'] at hd ⊢
    rcases List.mem_append.mp hd with hd | hd
    · obtain ⟨b, h1, _, o', h3, _⟩ := h.inv.source _ hd
      rw [hj b h1] at h3
      rcases h3 with h3 | h3 <;> cases h3
    · obtain ⟨u, v, e''⟩ := List.append_of_mem hd
      exact ⟨x, y ++ u, v, by rw [e, e'']; simp⟩

/-- What a call that is over and was not refused saw and answered: the workloads after a first part of the changes. -/
theorem over {s : Share W ε} (h : Reach s) {i : Nat} {a : Act W ε} {o : Out ε} (hi : s.acts[i]? = some a) (hl : a.stage = .left o)
    (ho : o ≠ .refused) : (∃ rest, s.done = a.began ++ rest) ∧ Answered a o := by
  have ha := h.inv.act i a hi
  unfold ActOk at ha
  rw [hl] at ha
  rcases ha with ⟨e, _⟩ | ⟨⟨rest, hr⟩, ha⟩
  · exact absurd e ho
  · exact ⟨⟨mine i a ++ rest, by rw [hr, List.append_assoc]⟩, ha⟩

/-- A run that was not refused ran the workload as the changes made it that were in force when it began: its condition, then its systems
in order until the first error, whatever other calls did meanwhile. -/
theorem C93_run {s : Share W ε} (h : Reach s) {i : Nat} {a : Act W ε} {o : Out ε} {l : Label} (hi : s.acts[i]? = some a)
    (hc : a.call = .run l) (hl : a.stage = .left o) (ho : o ≠ .refused) :
    (∃ rest, s.done = a.began ++ rest)
    ∧ (((Registry.after (a.began.map (·.2))).get l = none ∧ o = .ran (.error .missing) ∧ a.log = [])
      ∨ ∃ wl jobs, JobsOf (a.began.map (·.2)) l wl jobs ∧ RanAs l wl.runIf jobs a.log o) := by
  obtain ⟨h1, h2⟩ := over h hi hl ho
  refine ⟨h1, ?_⟩
  rcases h2 with ⟨op, h2, _⟩ | ⟨l', h2, _⟩ | ⟨l', h2, h3⟩ | ⟨h2, _⟩ | ⟨l', wl, jobs, h2, h3⟩
  · rw [hc] at h2; cases h2
  · rw [hc] at h2; cases h2
  · rw [hc] at h2; cases h2; exact .inl h3
  · rw [hc] at h2; cases h2
  · rcases h2 with h2 | ⟨h2, _⟩
    · rw [hc] at h2; cases h2; exact .inr ⟨wl, jobs, h3⟩
    · rw [hc] at h2; cases h2

/-- The same for the default workload. -/
theorem C93_run_default {s : Share W ε} (h : Reach s) {i : Nat} {a : Act W ε} {o : Out ε} (hi : s.acts[i]? = some a)
    (hc : a.call = .runDefault) (hl : a.stage = .left o) (ho : o ≠ .refused) :
    (∃ rest, s.done = a.began ++ rest)
    ∧ (((Registry.after (a.began.map (·.2))).default = none ∧ o = .ran (.ok ()) ∧ a.log = [])
      ∨ ∃ l wl jobs, (Registry.after (a.began.map (·.2))).default = some l ∧ JobsOf (a.began.map (·.2)) l wl jobs
        ∧ RanAs l wl.runIf jobs a.log o) := by
  obtain ⟨h1, h2⟩ := over h hi hl ho
  refine ⟨h1, ?_⟩
  rcases h2 with ⟨op, h2, _⟩ | ⟨l', h2, _⟩ | ⟨l', h2, h3⟩ | ⟨h2, h3⟩ | ⟨l', wl, jobs, h2, h3⟩
  · rw [hc] at h2; cases h2
  · rw [hc] at h2; cases h2
  · rw [hc] at h2; cases h2
  · exact .inl h3
  · rcases h2 with h2 | ⟨_, h2⟩
    · rw [hc] at h2; cases h2
    · exact .inr ⟨l', wl, jobs, h2, h3⟩

/-- `contains_workload` tells whether the changes in force when it got the workloads left one of that name. -/
theorem C93_contains {s : Share W ε} (h : Reach s) {i : Nat} {a : Act W ε} {o : Out ε} {l : Label} (hi : s.acts[i]? = some a)
    (hc : a.call = .contains l) (hl : a.stage = .left o) (ho : o ≠ .refused) :
    (∃ rest, s.done = a.began ++ rest) ∧ ∃ b, o = .told b ∧ (b = true ↔ (Registry.after (a.began.map (·.2))).get l ≠ none) := by
  obtain ⟨⟨rest, h1⟩, h2⟩ := over h hi hl ho
  refine ⟨⟨rest, h1⟩, ?_⟩
  have hb : AllBuilt (a.began.map (·.2)) := fun w hw => h.inv.built w (by rw [h1, List.map_append]; exact List.mem_append_left _ hw)
  rcases h2 with ⟨op, h2, _⟩ | ⟨l', h2, h3, _⟩ | ⟨l', h2, h3⟩ | ⟨h2, h3⟩ | ⟨l', wl, jobs, h2, h3⟩
  · rw [hc] at h2; cases h2
  · rw [hc] at h2
    cases h2
    refine ⟨_, h3, ?_⟩
    rw [contains_iff]
    have hk := known _ hb l
    cases hw : (Scheduler.after (a.began.map (·.2))).workload l with
    | none =>
      rw [hw] at hk
      constructor
      · rintro ⟨b, e⟩; cases e
      · intro e; exact absurd hk e
    | some b =>
      rw [hw] at hk
      obtain ⟨wl, jobs, ⟨e, _⟩, _⟩ := hk
      exact ⟨(fun _ e' => by rw [e] at e'; cases e'), fun _ => ⟨b, rfl⟩⟩
  · rw [hc] at h2; cases h2
  · rw [hc] at h2; cases h2
  · rcases h2 with h2 | ⟨h2, _⟩ <;> rw [hc] at h2 <;> cases h2

/-- A call that gets the workloads after another one was over sees what that one did; what a call sees is settled when it gets the
workloads. -/
theorem C93_fresh {s s' : Share W ε} (hst : Steps s s') {j : Nat} {b' : Act W ε} (hj' : s'.acts[j]? = some b')
    (hg : b'.stage ≠ .waiting ∧ b'.stage ≠ .left .refused) :
    ((∀ b, s.acts[j]? = some b → b.stage = .waiting) → ∃ rest, b'.began = s.done ++ rest)
    ∧ ∀ b, s.acts[j]? = some b → b.stage ≠ .waiting → b'.began = b.began := by
  constructor
  · intro hw
    induction hst generalizing b' with
    | refl => exact absurd (hw b' hj') hg.1
    | @tail s1 s2 h1 h2 ih =>
      obtain ⟨rest, hr⟩ := steps_done h1
      cases hb : s1.acts[j]? with
      | none =>
        exfalso
        cases h2 with
        | call c hc =>
          rcases Nat.lt_or_ge j s1.acts.length with hl | hl
          · rw [List.getElem?_eq_none_iff] at hb; omega
          · rw [List.getElem?_append_right hl] at hj'
            have := List.mem_singleton.mp (List.mem_of_getElem? hj')
            rw [this] at hg
            exact hg.1 rfl
        | other w => rw [hb] at hj'; cases hj'
        | _ =>
          rw [List.getElem?_eq_none_iff] at hb
          have := (List.getElem?_eq_some_iff.mp hj').1
          rw [List.length_set] at this
          omega
      | some b =>
        obtain ⟨b'', h3, _, h5⟩ := step_act h2 hb
        rw [hj'] at h3
        cases h3
        rcases h5 with e | ⟨_, e, _⟩ | ⟨_, e, _⟩ | ⟨e, e', _⟩
        · rw [e] at hg ⊢; exact ih hb hg
        · exact ⟨rest, by rw [e]; exact hr⟩
        · rw [e] at hg; exact absurd rfl hg.2
        · rw [e']
          refine ih hb ⟨fun e'' => ?_, fun e'' => ?_⟩ <;> · unfold Act.Holds at e; rw [e''] at e; exact e
  · intro b hb hn
    obtain ⟨b'', h1, _, h2⟩ := steps_act hst hb
    rw [hj'] at h1
    cases h1
    exact (h2 hn).2

/-! ## Every call comes to its end -/

/-- The number of places of the batches of that name. -/
def places (sch : Scheduler W ε) (l : Label) : Nat :=
  match sch.workload l with
  | none => 0
  | some b => (b.sequential.zip b.sequentialRunIf).length

/-- How far a run is from its end. -/
def far (sch : Scheduler W ε) : Stage ε → Nat
  | .opening l => 2 * places sch l + 2
  | .running l k => 2 * (places sch l - k) + 1
  | .inside l k => 2 * (places sch l - k)
  | _ => 0

theorem go_far {sch sch' : Scheduler W ε} {w w' : W} {a : Act W ε} {st : Stage ε} {ds : List (Did W)}
    (h : go sch w a = some (.ok (sch', w', st, ds))) (hn : a.stage ≠ .granted) :
    sch' = sch ∧ far sch st < far sch a.stage ∧ st ≠ .granted := by
  unfold go at h
  cases hs : a.stage <;> rw [hs] at h hn <;> dsimp only at h <;> try (cases h; done)
  · exact absurd rfl hn
  all_goals rw [Option.some.injEq] at h
  · rename_i l
    unfold openUp at h
    repeat' split at h
    all_goals cases h
    all_goals exact ⟨rfl, by unfold far; dsimp only; omega, fun e => by cases e⟩
  · rename_i l k
    unfold ask at h
    split at h
    · cases h
    · rename_i b hb
      have hp : places sch l = (b.sequential.zip b.sequentialRunIf).length := by unfold places; rw [hb]
      split at h
      · cases h
        exact ⟨rfl, by unfold far; dsimp only; omega, fun e => by cases e⟩
      · rename_i p hk
        have := (List.getElem?_eq_some_iff.mp hk).1
        repeat' split at h
        all_goals cases h
        all_goals exact ⟨rfl, by unfold far; dsimp only; omega, fun e => by cases e⟩
  · rename_i l k
    unfold exec at h
    split at h
    · cases h
    · rename_i b hb
      have hp : places sch l = (b.sequential.zip b.sequentialRunIf).length := by unfold places; rw [hb]
      split at h
      · cases h
      · rename_i p hk
        have := (List.getElem?_eq_some_iff.mp hk).1
        repeat' split at h
        all_goals cases h
        all_goals exact ⟨rfl, by unfold far; dsimp only; omega, fun e => by cases e⟩

theorem Steps.trans {s s' s'' : Share W ε} (h : Steps s s') (h' : Steps s' s'') : Steps s s'' := by
  induction h' with
  | refl => exact h
  | tail _ h2 ih => exact .tail ih h2

theorem release_leaving {s : Share W ε} (h : Inv s) (hs : Borrow.Small s.cell) {i : Nat} {a : Act W ε} {o : Out ε}
    (hi : s.acts[i]? = some a) (hl : a.stage = .leaving o) : ∃ s' a' o, Step s s' ∧ s'.acts[i]? = some a' ∧ a'.stage = .left o := by
  have : ∃ c' g, s.cell.step (if a.call.op.isSome then .dropExclusive else .dropShared) = some (c', g) := by
    cases ho : a.call.op.isSome with
    | true =>
      have := countP_pos (p := Act.writes) hi (by unfold Act.writes; rw [hl, ho]; rfl)
      have hx := h.exclusive
      have hr := h.re
      rw [if_pos rfl]
      unfold Cell.step
      dsimp only
      rw [if_neg (by omega)]
      exact ⟨_, _, rfl⟩
    | false =>
      have := countP_pos (p := Act.reads) hi (by unfold Act.reads; rw [hl, ho]; rfl)
      have hx := h.shared
      rw [if_neg (by decide)]
      unfold Cell.step
      dsimp only
      rw [if_neg (by omega)]
      exact ⟨_, _, rfl⟩
  obtain ⟨c', g, hc⟩ := this
  exact ⟨_, _, o, .leave i hi hl hs hc, List.getElem?_set_self (List.getElem?_eq_some_iff.mp hi).1, rfl⟩

theorem go_step {s : Share W ε} (h : Inv s) {i : Nat} {a : Act W ε} (hi : s.acts[i]? = some a) (hh : a.Holds)
    (hl : ∀ o, a.stage ≠ .leaving o) :
    ∃ s' sch w st ds, Step s s' ∧ s'.cell = s.cell ∧ s'.sch = sch ∧ s'.acts[i]? = some { a with stage := st, log := a.log ++ ds }
      ∧ go s.sch s.world a = some (.ok (sch, w, st, ds)) ∧ st.holds = true := by
  have : ∃ r, go s.sch s.world a = some r := by
    unfold go
    unfold Act.Holds at hh
    cases hs : a.stage <;> rw [hs] at hh <;> first | exact ⟨_, rfl⟩ | exact hh.elim | exact absurd hs (hl _)
  obtain ⟨r, hg⟩ := this
  have hg' := hg
  rw [h.sch] at hg'
  obtain ⟨sch, w, st, ds, e, hst, _⟩ := go_ok h.built (h.act i a hi) s.world hg'
  rw [e] at hg
  exact ⟨_, sch, w, st, ds, .go i hi hg, rfl, rfl, List.getElem?_set_self (List.getElem?_eq_some_iff.mp hi).1, hg, hst⟩

theorem release_far : ∀ (n : Nat) {s : Share W ε}, Inv s → Borrow.Small s.cell → ∀ {i : Nat} {a : Act W ε}, s.acts[i]? = some a →
    a.Holds → a.stage ≠ .granted → far s.sch a.stage ≤ n → ∃ s' a' o, Steps s s' ∧ s'.acts[i]? = some a' ∧ a'.stage = .left o
  | n, s, h, hs, i, a, hi, hh, hn, hf => by
    by_cases hl : ∃ o, a.stage = .leaving o
    · obtain ⟨o, hl⟩ := hl
      obtain ⟨s', a', o', h1, h2⟩ := release_leaving h hs hi hl
      exact ⟨s', a', o', .tail .refl h1, h2⟩
    · obtain ⟨s', sch, w, st, ds, h1, h2, h3, h4, h5, h6⟩ := go_step h hi hh (fun o e => hl ⟨o, e⟩)
      obtain ⟨h7, h8, h9⟩ := go_far h5 hn
      match n with
      | 0 => omega
      | n + 1 =>
        obtain ⟨s2, a2, o, h10, h11⟩ := release_far n (h.step h1) (by rw [h2]; exact hs) h4 ((holds_iff _).mpr h6) h9
          (by rw [h3, h7]; dsimp only; omega)
        exact ⟨s2, a2, o, (Steps.tail .refl h1).trans h10, h11⟩

/-- Whatever its stage, a call that has the workloads gives them back, if its systems and conditions end or panic. -/
theorem C93_release {s : Share W ε} (h : Reach s) (hs : Borrow.Small s.cell) {i : Nat} {a : Act W ε} (hi : s.acts[i]? = some a)
    (hh : a.Holds) : ∃ s' a' o, Steps s s' ∧ s'.acts[i]? = some a' ∧ a'.stage = .left o := by
  by_cases hg : a.stage = .granted
  · obtain ⟨s', sch, w, st, ds, h1, h2, h3, h4, h5, h6⟩ := go_step h.inv hi hh (fun o e => by rw [hg] at e; cases e)
    have hn : st ≠ .granted := by
      rintro rfl
      unfold go at h5
      rw [hg] at h5
      dsimp only at h5
      rw [Option.some.injEq] at h5
      unfold first at h5
      repeat' split at h5
      all_goals cases h5
    obtain ⟨s2, a2, o, h10, h11⟩ := release_far _ (h.inv.step h1) (by rw [h2]; exact hs) h4 ((holds_iff _).mpr h6) hn (Nat.le_refl _)
    exact ⟨s2, a2, o, (Steps.tail .refl h1).trans h10, h11⟩
  · exact release_far _ h.inv hs hi hh hg (Nat.le_refl _)

/-! ## A concrete history -/

/-- A step of call `i`, to be computed. -/
inductive Move (W ε : Type) where
  | call (c : Call W ε)
  | borrow (i : Nat)
  | go (i : Nat)
  | panic (i : Nat) (w : W)
  | leave (i : Nat)

instance (c : Cell) : Decidable (Borrow.Small c) := by unfold Borrow.Small; infer_instance

def Share.play (s : Share W ε) : Move W ε → Option (Share W ε)
  | .call c => some { s with acts := s.acts ++ [{ call := c, stage := .waiting, began := [], log := [] }] }
  | .borrow i =>
    match s.acts[i]? with
    | none => none
    | some a =>
      match a.stage with
      | .waiting =>
        if Borrow.Small s.cell then
          match s.cell.step (if a.call.op.isSome then .write else .read) with
          | some (c', .guard) => some { s with cell := c', acts := s.acts.set i { a with stage := .granted, began := s.done } }
          | some (c', .error) => some { s with cell := c', acts := s.acts.set i { a with stage := .left .refused } }
          | _ => none
        else none
      | _ => none
  | .go i =>
    match s.acts[i]? with
    | none => none
    | some a =>
      match Share.go s.sch s.world a with
      | some (.ok (sch, w, st, ds)) =>
        some { sch, cell := s.cell, world := w, acts := s.acts.set i { a with stage := st, log := a.log ++ ds }, done := s.done ++ noted i a }
      | _ => none
  | .panic i w =>
    match s.acts[i]? with
    | none => none
    | some a => if a.stage.user then some { s with world := w, acts := s.acts.set i { a with stage := .leaving .unwound } } else none
  | .leave i =>
    match s.acts[i]? with
    | none => none
    | some a =>
      match a.stage with
      | .leaving o =>
        if Borrow.Small s.cell then
          match s.cell.step (if a.call.op.isSome then .dropExclusive else .dropShared) with
          | some (c', _) => some { s with cell := c', acts := s.acts.set i { a with stage := .left o } }
          | none => none
        else none
      | _ => none

theorem play_step {s s' : Share W ε} {m : Move W ε} (hb : ∀ w, m = .call (.add w) → Built w) (h : s.play m = some s') : Step s s' := by
  cases m with
  | call c =>
    cases h
    exact .call c fun w hw => hb w (by rw [hw])
  | borrow i =>
    unfold Share.play at h
    dsimp only at h
    split at h
    · cases h
    · rename_i a hi
      split at h
      · rename_i hw
        split at h
        · rename_i hs
          split at h
          · rename_i c' hc
            cases h
            exact .begin i hi hw hs hc
          · rename_i c' hc
            cases h
            exact .refuse i hi hw hs hc
          · cases h
        · cases h
      · cases h
  | go i =>
    unfold Share.play at h
    dsimp only at h
    split at h
    · cases h
    · rename_i a hi
      split at h
      · rename_i hg
        cases h
        exact .go i hi hg
      · cases h
  | panic i w =>
    unfold Share.play at h
    dsimp only at h
    split at h
    · cases h
    · rename_i a hi
      split at h
      · rename_i hu
        cases h
        exact .panic i w hi hu
      · cases h
  | leave i =>
    unfold Share.play at h
    dsimp only at h
    split at h
    · cases h
    · rename_i a hi
      split at h
      · rename_i o hl
        split at h
        · rename_i hs
          split at h
          · rename_i c' g hc
            cases h
            exact .leave i hi hl hs hc
          · cases h
        · cases h
      · cases h

def Share.plays (s : Share W ε) : List (Move W ε) → Option (Share W ε)
  | [] => some s
  | m :: ms => (s.play m).bind fun s' => s'.plays ms

theorem plays_steps : ∀ {ms : List (Move W ε)} {s s' : Share W ε}, (∀ w, Move.call (.add w) ∈ ms → Built w) →
    s.plays ms = some s' → Steps s s'
  | [], s, s', _, h => by cases h; exact .refl
  | m :: ms, s, s', hb, h => by
    unfold Share.plays at h
    cases hp : s.play m with
    | none => rw [hp] at h; cases h
    | some s1 =>
      rw [hp] at h
      exact (Steps.tail .refl (play_step (fun w e => hb w (by rw [e]; exact List.mem_cons_self)) hp)).trans
        (plays_steps (fun w e => hb w (List.mem_cons_of_mem _ e)) h)

namespace Ex

/-- Call 0 adds a workload of four systems; call 1 runs it. In its first system, call 2 tries to add another workload and call 3 asks for
that one. After the run, call 4 adds it; call 5 runs it and its system panics; call 6 adds it again. -/
def history : List (Move Nat Unit) :=
  [.call (.add Sched.Ex.demo), .borrow 0, .go 0, .leave 0,
   .call (.run (.str 1)), .borrow 1, .go 1, .go 1, .go 1,
   .call (.add otherDemo), .borrow 2, .call (.contains (.str 2)), .borrow 3,
   .go 1, .go 3, .go 1, .go 1, .leave 3, .go 1, .go 1, .go 1, .go 1, .go 1, .leave 1,
   .call (.add otherDemo), .borrow 4, .go 4, .leave 4,
   .call (.run (.str 2)), .borrow 5, .go 5, .go 5, .go 5, .panic 5 7, .leave 5,
   .call (.add otherDemo), .borrow 6, .go 6, .leave 6]

theorem history_ends : ((Share.new 0).plays history).map (fun s => (s.acts.map (·.stage), s.done.map (·.1), s.world, s.cell.word))
    = some ([.left (.added (.ok ())), .left (.ran (.ok ())), .left .refused, .left (.told false), .left (.added (.ok ())), .left .unwound,
        .left (.added (.error (.err .alreadyExists)))], [0, 4, 6], 7, 0) := by rfl

/-- The state in which the first system of the run is about to run and call 2 waits. -/
theorem history_mid : ((Share.new 0).plays (history.take 10)).map (fun s => s.acts.map (·.stage))
    = some [.left (.added (.ok ())), .inside (.str 1) 0, .waiting] := by rfl

theorem history_built : ∀ w, Move.call (.add w) ∈ history → Built w := by
  intro w hw
  simp only [history, List.mem_cons, Move.call.injEq, Call.add.injEq, reduceCtorEq, List.not_mem_nil, or_false, false_or, or_self] at hw
  rcases hw with rfl | rfl | rfl | rfl
  · exact Sched.Ex.demo_built
  all_goals exact .withSystem (.new _ trivial) (Sched.Ex.sys_fresh _ _ rfl)

/-- The history is possible, and ends with calls over in every way: done, refused, unwound. -/
example : ∃ s : Share Nat Unit, Reach s ∧ Borrow.Small s.cell
    ∧ (∃ a, s.acts[1]? = some a ∧ a.call = .run (.str 1) ∧ a.stage = .left (.ran (.ok ())))
    ∧ (∃ a, s.acts[2]? = some a ∧ a.call.Changes ∧ a.stage = .left .refused)
    ∧ (∃ a, s.acts[3]? = some a ∧ a.call = .contains (.str 2) ∧ a.stage = .left (.told false)) := by
  have h : ((Share.new 0).plays history).isSome = true := by rfl
  obtain ⟨s, hs⟩ := Option.isSome_iff_exists.mp h
  refine ⟨s, ⟨0, plays_steps history_built hs⟩, ?_⟩
  have e : s = ((Share.new 0).plays history).get h := by simp [hs]
  have hc : ((Share.new 0).plays history).map (fun s => (s.cell.shared, s.cell.dying)) = some (0, 0) := by rfl
  rw [hs] at hc
  simp only [Option.map_some, Option.some.injEq, Prod.mk.injEq] at hc
  refine ⟨by unfold Borrow.Small; rw [hc.1, hc.2]; decide, ?_⟩
  rw [e]
  exact ⟨⟨_, rfl, rfl, rfl⟩, ⟨_, rfl, ⟨_, rfl⟩, rfl⟩, ⟨_, rfl, rfl, rfl⟩⟩

/-- A run in progress with a call that would change the workloads waiting. -/
example : ∃ s : Share Nat Unit, Reach s ∧ Borrow.Small s.cell
    ∧ (∃ b, s.acts[1]? = some b ∧ b.Holds ∧ ¬ b.call.Changes) ∧ (∃ a, s.acts[2]? = some a ∧ a.call.Changes ∧ a.stage = .waiting) := by
  have h : ((Share.new 0).plays (history.take 10)).isSome = true := by rfl
  obtain ⟨s, hs⟩ := Option.isSome_iff_exists.mp h
  refine ⟨s, ⟨0, plays_steps (fun w hw => history_built w (List.mem_of_mem_take hw)) hs⟩, ?_⟩
  have e : s = ((Share.new 0).plays (history.take 10)).get h := by simp [hs]
  have hc : ((Share.new 0).plays (history.take 10)).map (fun s => (s.cell.shared, s.cell.dying)) = some (1, 0) := by rfl
  rw [hs] at hc
  simp only [Option.map_some, Option.some.injEq, Prod.mk.injEq] at hc
  refine ⟨by unfold Borrow.Small; rw [hc.1, hc.2]; decide, ?_⟩
  have run : ∀ b : Act Nat Unit, b.call = .run (.str 1) → ¬ b.call.Changes := by
    rintro b hb ⟨_, ho⟩
    rw [hb] at ho
    cases ho
  rw [e]
  exact ⟨⟨_, rfl, trivial, run _ rfl⟩, ⟨_, rfl, ⟨_, rfl⟩, rfl⟩⟩

end Ex

end Verif.Sched.Share
