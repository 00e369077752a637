import Verif.Props.SparseSet

/-!
# Component storages: C19, C20, C21, C22
-/
namespace Verif.SparseSet
open StoSpec
variable {T : Type}

/-- What iterating over the storage shows: ids with components. -/
def contents (s : SparseSet T) : List (EId × T) := s.dense.zip s.data

/-- The contents list each index once; every entity that has a component is there with it, possibly
under a wrong generation; with `NoTakeover` under its own id, and nothing else is there. -/
theorem contents_ok {P : Prop} {s : SparseSet T} {a : Sto T} {L : List (Cell T)} (h : Abs P s a L) :
    (s.contents.map (·.1.idx)).Nodup ∧
    (∀ e v, Valid e → s.get e = .ok (some v) → ∃ g, (⟨e.idx, g⟩, v) ∈ s.contents) ∧
    (P → ∀ e v, Valid e → (s.get e = .ok (some v) ↔ (e, v) ∈ s.contents)) := by
  have hc : s.contents = L.map fun c => (c.id, c.val) := by
    unfold contents; rw [h.shape]; exact zip_rows _ _ _
  have hget : ∀ e v, Valid e → (s.get e = .ok (some v) ↔
      ∃ c ∈ L, c.id.idx = e.idx ∧ c.gen = e.gen ∧ c.val = v) := by
    intro e v he
    rw [h.get he.1]
    unfold lookup
    rw [h.rows]
    constructor
    · intro hh
      injection hh with hh
      cases hcell : cellAt L e.idx with
      | none => rw [hcell] at hh; cases hh
      | some c =>
        rw [hcell] at hh
        simp only [Option.map_some, Option.bind_some] at hh
        rw [cellAt_some h.ok] at hcell
        split at hh
        · rename_i hg
          injection hh with hh
          exact ⟨c, hcell.1, hcell.2, hg, hh⟩
        · cases hh
    · rintro ⟨c, hcL, hci, hcg, hcv⟩
      rw [(cellAt_some h.ok).2 ⟨hcL, hci⟩]
      simp only [Option.map_some, Option.bind_some]
      rw [if_pos (show c.toRow.gen = e.gen from hcg)]
      exact congrArg (fun z => Except.ok (some z)) hcv
  refine ⟨?_, ?_, ?_⟩
  · rw [hc, List.map_map]
    exact h.ok.nodup
  · intro e v he hg
    obtain ⟨c, hcL, hci, hcg, hcv⟩ := (hget e v he).1 hg
    refine ⟨c.id.gen, ?_⟩
    rw [hc, List.mem_map]
    refine ⟨c, hcL, ?_⟩
    rw [← hci, hcv]
  · intro p e v he
    rw [hget e v he, hc, List.mem_map]
    constructor
    · rintro ⟨c, hcL, hci, hcg, hcv⟩
      refine ⟨c, hcL, ?_⟩
      rw [h.clean p c hcL] at hcg
      rw [hcv]
      cases e; simp only at hci hcg; rw [← hci, ← hcg]
    · rintro ⟨c, hcL, hcc⟩
      injection hcc with h1 h2
      refine ⟨c, hcL, by rw [h1], ?_, h2⟩
      rw [h.clean p c hcL, h1]

/-! ## C19 -/

theorem find_idx {calls : List (Call T)} (hn : (calls.map (·.id.idx)).Nodup) {c : Call T} (hc : c ∈ calls) :
    calls.find? (fun x => x.id.idx == c.id.idx) = some c := by
  induction calls with
  | nil => cases hc
  | cons x xs ih =>
    simp only [List.map_cons, List.nodup_cons] at hn
    rw [List.find?_cons]
    rcases List.mem_cons.1 hc with rfl | hm
    · simp
    · have : x.id.idx ≠ c.id.idx := fun hh => hn.1 (by rw [hh]; exact List.mem_map.2 ⟨c, hm, rfl⟩)
      simp only [beq_eq_false_iff_ne.2 this]
      exact ih hn.2 hm

/-- C19, for `retain_mut` with any closure, which may carry state and write to what it is given.
It ends; the closure is called once for each of the components the storage iterates over; the
components whose call answered `true` stay, with what the call left in them, all others are gone; no
component appears. -/
theorem C19_retain_mut {a b c d : Bool} {h : List (Event T)} {s : SparseSet T}
    (hr : Run (SparseSet.new a b c d) h s) {σ : Type} (st : σ) (f : σ → EId → T → Option T × Bool × σ)
    (now : Nat) :
    ∃ st' calls s', s.retainMut now (st, []) (recording f) = .ok ((st', calls), s') ∧
      (calls.map fun c => (c.id, c.given)).Perm s.contents ∧
      (∀ e v, Valid e → s.get e = .ok (some v) → ∃ c ∈ calls, c.id.idx = e.idx ∧ c.given = v ∧
        s'.get e = .ok (if c.keep then some c.left else none) ∧
        (c.keep = true → c.wrote = none → s'.observe e = s.observe e)) ∧
      (∀ e, Valid e → s.get e = .ok none → s'.get e = .ok none) := by
  obtain ⟨L, hL⟩ := run_abs hr
  obtain ⟨⟨st', calls⟩, s', hi⟩ := (C12_total hr).2.2.2.2.2.2.2.1 _ (st, []) (recording f) now
  obtain ⟨⟨order, ho, hcalls⟩, L', hL'⟩ := abs_retainMut (Q := False) hL hi False.elim
  have hcont : s.contents = L.map fun c => (c.id, c.val) := by
    unfold contents; rw [hL.shape]; exact zip_rows _ _ _
  have hperm : (calls.map fun c => (c.id, c.given)).Perm s.contents := by
    rw [hcalls, hcont]; exact ho.map _
  obtain ⟨k1, k2, _⟩ := contents_ok hL
  have hnd : (calls.map (·.id.idx)).Nodup := by
    have := (hperm.map (·.1.idx)).nodup_iff.2 k1
    rwa [List.map_map] at this
  have hL'rows : ∀ j, (step (after (Sto.init a b c d) h) (.retained now calls)).rows j =
    match calls.find? (fun c => c.id.idx == j) with
        | some x => callRow (after (Sto.init a b c d) h).trkMod now x
            ((after (Sto.init a b c d) h).rows j)
        | none => (after (Sto.init a b c d) h).rows j := fun _ => rfl
  refine ⟨st', calls, s', hi, hperm, ?_, ?_⟩
  · intro e v he hg
    obtain ⟨g, hm⟩ := k2 e v he hg
    rw [← hperm.mem_iff, List.mem_map] at hm
    obtain ⟨cl, hcl, hcle⟩ := hm
    injection hcle with hci hcg
    have hidx : cl.id.idx = e.idx := by rw [hci]
    have hf := find_idx hnd hcl
    rw [hidx] at hf
    refine ⟨cl, hcl, hidx, hcg, ?_, ?_⟩
    · rw [hL'.get he.1]
      unfold lookup
      rw [hL'rows, hf]
      rw [hL.get he.1] at hg
      injection hg with hg
      unfold lookup at hg
      cases hrow : (after (Sto.init a b c d) h).rows e.idx with
      | none => rw [hrow] at hg; cases hg
      | some r =>
        rw [hrow] at hg
        simp only [Option.bind_some] at hg
        split at hg
        · rename_i hgen
          injection hg with hg
          dsimp only
          unfold callRow Call.left
          cases cl.keep with
          | false => rfl
          | true =>
            cases cl.wrote with
            | none => simp [hgen, hg, hcg]
            | some w => simp [StoSpec.writeRow, hgen]
        · cases hg
    · intro hk hw
      rw [hL'.observe he.1, hL.observe he.1]
      unfold Sto.observe
      rw [hL'rows, hf]
      dsimp only
      unfold callRow
      rw [hk, hw]
      rfl
  · intro e he hg
    rw [hL'.get he.1]
    rw [hL.get he.1] at hg
    injection hg with hg
    unfold lookup at hg ⊢
    rw [hL'rows]
    cases hrow : (after (Sto.init a b c d) h).rows e.idx with
    | none =>
      cases calls.find? (fun c => c.id.idx == e.idx) with
      | none => rfl
      | some cl =>
        dsimp only
        unfold callRow
        cases cl.keep with
        | false => rfl
        | true => cases cl.wrote <;> rfl
    | some r =>
      rw [hrow] at hg
      simp only [Option.bind_some] at hg
      have hgen : r.gen ≠ e.gen := by
        intro hh; rw [if_pos hh] at hg; cases hg
      cases calls.find? (fun c => c.id.idx == e.idx) with
      | none => simp [hgen]
      | some cl =>
        dsimp only
        unfold callRow
        cases cl.keep with
        | false => rfl
        | true =>
          cases cl.wrote with
          | none => simp [hgen]
          | some w => simp [StoSpec.writeRow, hgen]

/-- C19, for `retain`: the closure cannot write, so the survivors and their timestamps are unchanged. -/
theorem C19_retain {a b c d : Bool} {h : List (Event T)} {s : SparseSet T}
    (hr : Run (SparseSet.new a b c d) h s) {σ : Type} (st : σ) (f : σ → EId → T → Bool × σ) (now : Nat) :
    ∃ st' calls s', s.retain now (st, []) (recordingRef f) = .ok ((st', calls), s') ∧
      (calls.map fun c => (c.id, c.given)).Perm s.contents ∧
      (∀ e v, Valid e → s.get e = .ok (some v) → ∃ c ∈ calls, c.id.idx = e.idx ∧ c.given = v ∧
        s'.observe e = if c.keep then s.observe e else .ok none) ∧
      (∀ e, Valid e → s.get e = .ok none → s'.get e = .ok none) := by
  rw [retain_eq_retainMut]
  obtain ⟨st', calls, s', hi, h1, h2, h3⟩ :=
    C19_retain_mut hr st (fun st e v => (none, (f st e v).1, (f st e v).2)) now
  have hrun := hr.snoc (Step.retainMut hi)
  obtain ⟨L, hL⟩ := run_abs hr
  obtain ⟨L', hL'⟩ := run_abs hrun
  -- no call of the closure wrote
  have hw : ∀ c ∈ calls, c.wrote = none := by
    rw [hL.shape] at hi
    unfold retainMut at hi
    obtain ⟨sp', L1, order, _, g2, _⟩ := retainMutLoop_ok
      (recording (fun st e v => (none, (f st e v).1, (f st e v).2))) now L.length s s.sparse L (st, []) 0
      hL.ok (by simp)
    have hlen : (build s s.sparse L).dense.length = L.length := by simp
    rw [hlen, g2] at hi
    injection hi with hi
    injection hi with hi _
    have key : ∀ (order : List (Cell T)) (st : σ) (acc : List (Call T)),
        (∀ c ∈ acc, c.wrote = none) →
        ∀ c ∈ (visit (recording (fun st e v => (none, (f st e v).1, (f st e v).2))) s.trkMod now (st, acc)
          order).1.2, c.wrote = none := by
      intro order
      induction order with
      | nil => intro st acc hacc c hc; exact hacc c hc
      | cons x order ih =>
        intro st acc hacc c hc
        have hc' : c ∈ (visit (recording (fun st e v => (none, (f st e v).1, (f st e v).2))) s.trkMod now
          ((f st x.id x.val).2, acc ++ [⟨x.id, x.val, none, (f st x.id x.val).1⟩]) order).1.2 := hc
        refine ih (f st x.id x.val).2 (acc ++ [⟨x.id, x.val, none, (f st x.id x.val).1⟩]) ?_ c hc'
        intro c' hc'
        rcases List.mem_append.1 hc' with hm | hm
        · exact hacc c' hm
        · rw [List.mem_singleton.1 hm]
    intro c hc
    refine key order st [] (by simp) c ?_
    rw [hi]; exact hc
  refine ⟨st', calls, s', ?_, h1, ?_, h3⟩
  · exact hi
  · intro e v he hg
    obtain ⟨cl, hcl, hidx, hgv, hget, hobs⟩ := h2 e v he hg
    refine ⟨cl, hcl, hidx, hgv, ?_⟩
    cases hk : cl.keep with
    | true => rw [if_pos rfl]; exact hobs hk (hw cl hcl)
    | false =>
      rw [if_neg (by decide)]
      rw [hk, if_neg (by decide), hL'.get he.1] at hget
      injection hget with hget
      rw [hL'.observe he.1]
      unfold lookup at hget
      unfold Sto.observe
      cases hrow : (after (Sto.init a b c d) (h ++ [.retained now calls])).rows e.idx with
      | none => rfl
      | some r =>
        rw [hrow] at hget
        simp only [Option.bind_some] at hget ⊢
        have hgen : r.gen ≠ e.gen := by
          intro hh; rw [if_pos hh] at hget; cases hget
        rw [if_neg hgen]

/-- C19. As long as no component was inserted over the one of an older entity: the closure is given the
right ids, and the rejected components are logged as deleted, in order, and passed to the callback. -/
theorem C19_retain_log_partial {a b c d : Bool} {h : List (Event T)} {s s' : SparseSet T}
    (hr : Run (SparseSet.new a b c d) h s) (hn : NoTakeover h) {σ : Type} {st st' : σ}
    {f : σ → EId → T → Option T × Bool × σ} {now : Nat} {calls : List (Call T)}
    (hi : s.retainMut now (st, []) (recording f) = .ok ((st', calls), s')) :
    (∀ c ∈ calls, Valid c.id → s.get c.id = .ok (some c.given)) ∧
    s'.deletionData = s.deletionData ++ (if s.trkDel then
      (calls.filter fun c => !c.keep).map fun c => (c.id, now, c.left) else []) ∧
    s'.logRem = s.logRem ++ (if s.hookRem then
      (calls.filter fun c => !c.keep).map fun c => (c.id, c.left) else []) ∧
    s'.removalData = s.removalData := by
  obtain ⟨L, hL⟩ := run_abs hr
  obtain ⟨⟨order, ho, hcalls⟩, L', hL'⟩ := abs_retainMut (Q := NoTakeover h) hL hi id
  have hcont : s.contents = L.map fun c => (c.id, c.val) := by
    unfold contents; rw [hL.shape]; exact zip_rows _ _ _
  have hperm : (calls.map fun c => (c.id, c.given)).Perm s.contents := by
    rw [hcalls, hcont]; exact ho.map _
  refine ⟨?_, ?_, ?_, ?_⟩
  · intro cl hcl hv
    refine ((contents_ok hL).2.2 hn cl.id cl.given hv).2 ?_
    rw [← hperm.mem_iff, List.mem_map]
    exact ⟨cl, hcl, rfl⟩
  · rw [hL'.deleted hn, hL.deleted hn, hL.trkDel]
    show (if (after (Sto.init a b c d) h).trkDel then _ else _) = _
    split
    · rfl
    · simp
  · rw [hL'.remCalls hn, hL.remCalls hn, hL.hookRem]
    show (if (after (Sto.init a b c d) h).hookRem then _ else _) = _
    split
    · rfl
    · simp
  · rw [hL'.removed, hL.removed]; rfl

/-- C19 is false of the code after such an insertion: the closure is given the id of an entity that has
no component, here `(0,3)` instead of `(0,2)`, and the deletion is neither logged nor reported to the
`on_removal` callback. -/
theorem C19_fails : ∃ (h : List (Event Nat)) (s s' : SparseSet Nat),
    Run (SparseSet.new true true true true) h s ∧ s.get ⟨0, 2⟩ = .ok (some 20) ∧
    s.get ⟨0, 3⟩ = .ok none ∧
    s.retain 5 ((), []) (recordingRef fun _ _ _ => (false, ())) =
      .ok (((), [⟨⟨0, 3⟩, 20, none, false⟩]), s') ∧
    s'.get ⟨0, 2⟩ = .ok none ∧ s.trkDel = true ∧ s.hookRem = true ∧ s'.deletionData = [] ∧
    s'.logRem = [] :=
  ⟨_, takeover, _, takeover_run, rfl, rfl, rfl, rfl, rfl, rfl, rfl, rfl⟩

/-- A `retain` that keeps some and drops some, starting from three components. -/
example : ∃ (h : List (Event Nat)) (s s' : SparseSet Nat), Run (SparseSet.new true true true true) h s ∧
    NoTakeover h ∧ s.data = [30, 10, 20] ∧
    s.retain 7 (0, []) (recordingRef fun n _ v => (v == 20, n + 1)) =
      .ok ((3, [⟨⟨0, 0⟩, 30, none, false⟩, ⟨⟨2, 0⟩, 20, none, true⟩, ⟨⟨5, 2⟩, 10, none, false⟩]), s') ∧
    s'.data = [20] ∧ s'.deletionData = [(⟨0, 0⟩, 7, 30), (⟨5, 2⟩, 7, 10)] := by
  have h1 := (Run.nil (s0 := (SparseSet.new true true true true : SparseSet Nat))).snoc
    (Step.insert (e := ⟨0, 0⟩) (v := 30) (now := 1) (by decide) rfl)
  have h2 := h1.snoc (Step.insert (e := ⟨5, 2⟩) (v := 10) (now := 2) (by decide) rfl)
  have h3 := h2.snoc (Step.insert (e := ⟨2, 0⟩) (v := 20) (now := 3) (by decide) rfl)
  refine ⟨_, _, _, h3, ?_, rfl, rfl, rfl, rfl⟩
  intro e v now hm
  simp at hm

/-! ## C20 -/

/-- Calling `next` of `drain().with_id()` `n` times, keeping what it returned. -/
def Drain.pull (d : Drain T) : Nat → Res (List (EId × T) × Drain T)
  | 0 => .ok ([], d)
  | n + 1 => do
    match ← d.nextWithId with
    | none => .ok ([], d)
    | some (x, d) => do
      let (xs, d) ← Drain.pull d n
      .ok (x :: xs, d)

theorem Drain.pull_ok (ids : List EId) : ∀ (n k : Nat) (data : List T), k + data.length = ids.length →
    ∃ d', Drain.pull ⟨ids, ids.length, data⟩ n = .ok (((ids.drop k).zip data).take n, d') ∧
      d'.data = data.drop n := by
  intro n
  induction n with
  | zero => intro k data _; exact ⟨_, rfl, rfl⟩
  | succ n ih =>
    intro k data hk
    cases data with
    | nil => refine ⟨⟨ids, ids.length, []⟩, ?_, rfl⟩; simp [Drain.pull, Drain.nextWithId, bind, Except.bind]
    | cons x xs =>
      simp only [List.length_cons] at hk
      have hlt : k < ids.length := by omega
      obtain ⟨d', h1, h2⟩ := ih (k + 1) xs (by omega)
      refine ⟨d', ?_, by simpa using h2⟩
      have hpos : ids.length - 1 - xs.length = k := by omega
      have hge : ids.length ≥ 1 + xs.length := by omega
      simp only [Drain.pull, Drain.nextWithId, bind, Except.bind, if_pos hge, hpos]
      simp only [vecGetU, List.getElem?_eq_getElem hlt, h1]
      rw [List.drop_eq_getElem_cons hlt]
      rfl

/-- C20. `drain` empties the storage before it returns, so however much of the iterator is consumed the
storage is empty; pulling `n` times yields the first `n` of the contents, hence each component once with
its id; what was drained is logged as removed when removals are tracked. -/
theorem C20_drain_partial {a b c d : Bool} {h : List (Event T)} {s : SparseSet T}
    (hr : Run (SparseSet.new a b c d) h s) (now : Nat) :
    ∃ dr s', s.drain now = .ok (dr, s') ∧ (∀ e, Valid e → s'.get e = .ok none) ∧ s'.contents = [] ∧
      (∀ n, ∃ dr', dr.pull n = .ok (s.contents.take n, dr') ∧ (s.contents.length ≤ n → dr'.next = none)) ∧
      (s.contents.map (·.1.idx)).Nodup ∧
      (NoTakeover h → ∀ e v, Valid e → (s.get e = .ok (some v) ↔ (e, v) ∈ s.contents)) ∧
      s'.removalData = s.removalData ++ (if s.trkRem then s.contents.map fun x => (x.1, now) else []) ∧
      s'.deletionData = s.deletionData := by
  obtain ⟨L, hL⟩ := run_abs hr
  obtain ⟨sp', h1, h2⟩ := drain_ok (s := s) hL.ok now
  rw [← hL.shape] at h1
  obtain ⟨L', hL'⟩ := abs_step (Q := False) hL (Step.drain h1) False.elim False.elim
  have hcont : s.contents = L.map fun c => (c.id, c.val) := by
    unfold contents; rw [hL.shape]; exact zip_rows _ _ _
  obtain ⟨k1, _, k3⟩ := contents_ok hL
  refine ⟨_, _, h1, ?_, rfl, ?_, k1, k3, ?_, rfl⟩
  · intro e he
    rw [hL'.get he.1]
    rfl
  · intro n
    obtain ⟨d', g1, g2⟩ := Drain.pull_ok (L.map (·.id)) n 0 (L.map (·.val)) (by simp)
    refine ⟨d', ?_, ?_⟩
    · rw [List.length_map] at g1
      rw [g1, List.drop_zero, hcont, zip_map]
    · intro hle
      rw [hcont, List.length_map] at hle
      unfold Drain.next
      rw [g2, List.drop_eq_nil_of_le (by simpa using hle)]
  · rw [hcont]
    simp only [build]
    split <;> simp [Function.comp_def]

/-- C20. `clear` empties the storage and logs all of its contents as deleted when deletions are tracked. -/
theorem C20_clear {a b c d : Bool} {h : List (Event T)} {s : SparseSet T}
    (hr : Run (SparseSet.new a b c d) h s) (now : Nat) :
    ∃ s', s.clear now = .ok s' ∧ (∀ e, Valid e → s'.get e = .ok none) ∧ s'.contents = [] ∧
      s'.deletionData = s.deletionData ++
        (if s.trkDel then s.contents.map fun x => (x.1, now, x.2) else []) ∧
      s'.removalData = s.removalData := by
  obtain ⟨L, hL⟩ := run_abs hr
  obtain ⟨sp', h1, h2⟩ := clear_ok (s := s) hL.ok now
  rw [← hL.shape] at h1
  obtain ⟨L', hL'⟩ := abs_step (Q := False) hL (Step.clear h1) False.elim False.elim
  have hcont : s.contents = L.map fun c => (c.id, c.val) := by
    unfold contents; rw [hL.shape]; exact zip_rows _ _ _
  refine ⟨_, h1, ?_, rfl, ?_, rfl⟩
  · intro e he
    rw [hL'.get he.1]
    rfl
  · rw [hcont]
    simp only [build]
    split <;> simp [Function.comp_def]

example : demoState.contents = [(⟨2, 0⟩, 31), (⟨5, 2⟩, 21)] ∧
    (demoState.drain 9).map (fun x => (x.1.pull 3).map (·.1)) =
      .ok (.ok [(⟨2, 0⟩, 31), (⟨5, 2⟩, 21)]) := by
  constructor <;> rfl

/-! ## C21 -/

/-- C21, insertions: the callback gets exactly the calls of the specification, one per accepted
insertion, in order. -/
theorem C21_insertion_calls {a b c d : Bool} {h : List (Event T)} {s : SparseSet T}
    (hr : Run (SparseSet.new a b c d) h s) :
    s.logIns = (after (Sto.init a b c d) h).insCalls := by
  obtain ⟨L, hL⟩ := run_abs hr; exact hL.insCalls

/-- C21, one insertion: exactly one call, with the entity and the component, iff it took effect. -/
theorem C21_insert_once {a b c d : Bool} {h : List (Event T)} {s s' : SparseSet T}
    (hr : Run (SparseSet.new a b c d) h s) {e : EId} (he : Valid e) {v : T} {now : Nat}
    {r : InsertionResult T} (hi : s.insert e v now = .ok (r, s')) :
    s'.logIns = s.logIns ++ (if s.hookIns && r.wasInserted then [(e, v)] else []) ∧
    s'.logRem = s.logRem := by
  obtain ⟨L, hL⟩ := run_abs hr
  have hres := (C12_results hr (Step.insert he hi)).1 _ _ _ _ rfl
  have h1 := C21_insertion_calls (hr.snoc (Step.insert he hi))
  rw [h1, C21_insertion_calls hr, hL.hookIns, hres.1]
  constructor
  · unfold after
    rw [List.foldl_append]
    simp only [List.foldl_cons, List.foldl_nil, step]
    split <;> simp
  · obtain ⟨r', hook, sp', L', g1, _⟩ := insert_ok (s := s) hL.ok he v now
    rw [← hL.shape, hi] at g1
    injection g1 with g1
    injection g1 with g1 g2
    rw [g2]
    cases hook
    · rfl
    · simp only [build, callIns_eq, if_true]

/-- C21, one removal or deletion: exactly one call with the entity and its component iff it had one. -/
theorem C21_removal_once {a b c d : Bool} {h : List (Event T)} {s s' : SparseSet T}
    (hr : Run (SparseSet.new a b c d) h s) {e : EId} (he : Valid e) (now : Nat) :
    (∀ r, s.dynRemove e now = .ok (r, s') → s'.logIns = s.logIns ∧ s'.logRem = s.logRem ++
      match r with
      | some v => if s.hookRem then [(e, v)] else []
      | none => []) ∧
    (∀ r, s.dynDelete e now = .ok (r, s') → s'.logIns = s.logIns ∧ ∃ o, s.get e = .ok o ∧
      s'.logRem = s.logRem ++
      match o with
      | some v => if s.hookRem then [(e, v)] else []
      | none => []) := by
  obtain ⟨L, hL⟩ := run_abs hr
  refine ⟨?_, ?_⟩
  · intro r hi
    obtain ⟨r', sp', L', h1, h2, h3⟩ := dynRemove_ok (s := s) hL.ok (.inl he.1) now
    rw [← hL.shape, hi] at h1
    injection h1 with h1
    injection h1 with hr' hs'
    subst hr'; subst hs'
    cases r with
    | none => simp [build]
    | some v =>
      simp only [callRem_eq]
      cases s.trkRem <;> cases s.hookRem <;> simp [build]
  · intro r hi
    obtain ⟨r', sp', L', h1, h2, h3⟩ := dynDelete_ok (s := s) hL.ok (.inl he.1) now
    rw [← hL.shape, hi] at h1
    injection h1 with h1
    injection h1 with hr' hs'
    subst hs'
    obtain ⟨_, _, hl⟩ := removeRow_rows hL h2 h3
    refine ⟨?_, r', by rw [hL.get he.1, hl], ?_⟩
    · cases r' with
      | none => rfl
      | some v => simp only [noteDel_eq]; rfl
    · cases r' with
      | none => simp [build]
      | some v => simp only [noteDel_eq]; cases s.hookRem <;> simp [build]

/-- C21, removals over a history without takeovers: the callback gets exactly one call per component
removed, deleted or rejected by `retain`, in order. Missing: `clear` and `drain` (see `C21_fails`). -/
theorem C21_removal_calls_partial {a b c d : Bool} {h : List (Event T)} {s : SparseSet T}
    (hr : Run (SparseSet.new a b c d) h s) (hn : NoTakeover h) :
    s.logRem = (after (Sto.init a b c d) h).remCalls := by
  obtain ⟨L, hL⟩ := run_abs hr; exact hL.remCalls hn

/-- C21 is false of the code: `clear` and `drain` destroy or hand out components without calling
`on_removal`; a removal through a newer handle destroys the component of the older entity without
calling it; bulk insertion does not call `on_insertion`. -/
theorem C21_fails :
    (∃ (h : List (Event Nat)) (s s1 s2 s3 : SparseSet Nat) (dr : Drain Nat),
      Run (SparseSet.new true true true true) h s ∧ s.hookRem = true ∧ s.get ⟨0, 1⟩ = .ok (some 10) ∧
      s.clear 5 = .ok s1 ∧ s1.get ⟨0, 1⟩ = .ok none ∧ s1.logRem = [] ∧
      s.drain 5 = .ok (dr, s2) ∧ s2.get ⟨0, 1⟩ = .ok none ∧ s2.logRem = [] ∧
      s.dynRemove ⟨0, 2⟩ 5 = .ok (none, s3) ∧ s3.get ⟨0, 1⟩ = .ok none ∧ s3.logRem = []) ∧
    (∃ (h : List (Event Nat)) (s s1 : SparseSet Nat),
      Run (SparseSet.new true true true true) h s ∧ s.hookIns = true ∧
      s.bulkInsert [⟨0, 0⟩] [7] 5 = .ok s1 ∧ s1.get ⟨0, 0⟩ = .ok (some 7) ∧ s1.logIns = []) := by
  refine ⟨?_, ?_⟩
  · have h0 := (Run.nil (s0 := (SparseSet.new true true true true : SparseSet Nat))).snoc
      (Step.onRemoval (b := true))
    have h1 := h0.snoc (Step.insert (e := ⟨0, 1⟩) (v := 10) (now := 1) (by decide) rfl)
    exact ⟨_, _, _, _, _, _, h1, rfl, rfl, rfl, rfl, rfl, rfl, rfl, rfl, rfl, rfl, rfl⟩
  · have h0 := (Run.nil (s0 := (SparseSet.new true true true true : SparseSet Nat))).snoc
      (Step.onInsertion (b := true))
    exact ⟨_, _, _, h0, rfl, rfl, rfl, rfl⟩

/-! ## C22 -/

/-- The modification timestamp a handle shows after a write: `now` when tracked. -/
def stamped (s : SparseSet T) (now : Nat) (o : Option (T × Option Nat × Option Nat)) (v : T) :
    Option (T × Option Nat × Option Nat) :=
  o.map fun x => (v, x.2.1, if s.trkMod then some now else none)

/-- What a handle shows after a write to row `i`. -/
theorem write_observe {P : Prop} {s : SparseSet T} {a : Sto T} {L : List (Cell T)} (h : Abs P s a L)
    {i : Nat} {c : Cell T} (hi : L[i]? = some c) {x : EId} (hci : c.id.idx = x.idx) (hcg : c.gen = x.gen)
    (now : Nat) (v : T) (e : EId) :
    Sto.observe (StoSpec.step a (.wrote [(x, v)] now)) e =
      if e = x then s.stamped now (Sto.observe a x) v else Sto.observe a e := by
  have hrow : a.rows x.idx = some c.toRow := by
    rw [h.rows, ← hci, cellAt_mem h.ok hi]; rfl
  show Sto.observe { a with rows := setRow a.rows x.idx ((a.rows x.idx).map (StoSpec.writeRow a.trkMod now v)) } e = _
  unfold Sto.observe setRow stamped
  simp only
  by_cases hidx : e.idx = x.idx
  · rw [if_pos hidx, hidx, hrow]
    simp only [Option.map_some, Option.bind_some]
    by_cases hgen : e.gen = x.gen
    · have hex : e = x := by cases e; cases x; simp_all
      subst hex
      rw [if_pos (show (StoSpec.writeRow _ _ _ c.toRow).gen = e.gen from hcg),
        if_pos (show c.toRow.gen = e.gen from hcg), if_pos rfl, h.trkMod]
      simp only [Option.map_some, StoSpec.writeRow, tracked]
      cases a.trkMod <;> rfl
    · have hex : e ≠ x := by intro hh; exact hgen (by rw [hh])
      rw [if_neg (show ¬ (StoSpec.writeRow _ _ _ c.toRow).gen = e.gen from fun hh => hgen (hh.symm.trans hcg)),
        if_neg (show ¬ c.toRow.gen = e.gen from fun hh => hgen (hh.symm.trans hcg)), if_neg hex]
  · rw [if_neg hidx, if_neg (fun hh => hidx (by rw [hh]))]

/-- A component read through a handle lies in a row. -/
theorem get_row {P : Prop} {s : SparseSet T} {a : Sto T} {L : List (Cell T)} (h : Abs P s a L) {x : EId}
    (hx : Valid x) {u : T} (hu : s.get x = .ok (some u)) :
    ∃ (i : Nat) (c : Cell T), L[i]? = some c ∧ c.id.idx = x.idx ∧ c.gen = x.gen ∧ c.val = u ∧
      s.indexOf x = .ok (some i) := by
  rcases indexOf_ok (s := s) h.ok x hx.1 with ⟨h1, h2⟩ | ⟨i, c, hi, hci, hcg, h2⟩
  · rw [← h.shape] at h2
    unfold get at hu
    simp only [h2, bind, Except.bind] at hu
    injection hu with hu
    cases hu
  · refine ⟨i, c, hi, hci, hcg, ?_, by rw [← h.shape] at h2; exact h2⟩
    unfold get at hu
    rw [h.shape] at hu
    simp only [h2, bind, Except.bind, build_data, vecGetU_map (fun x => x.val) hi] at hu
    injection hu with hu
    injection hu with hu

theorem none_index {P : Prop} {s : SparseSet T} {a : Sto T} {L : List (Cell T)} (h : Abs P s a L) {x : EId}
    (hx : Valid x) : (s.get x = .ok none ∧ s.indexOf x = .ok none) ∨
      ∃ i u, s.get x = .ok (some u) ∧ s.indexOf x = .ok (some i) := by
  cases hl : lookup a.rows x with
  | none =>
    left
    refine ⟨by rw [h.get hx.1, hl], ?_⟩
    rcases indexOf_ok (s := s) h.ok x hx.1 with ⟨_, h2⟩ | ⟨i, c, hi, hci, hcg, h2⟩
    · rw [← h.shape] at h2; exact h2
    · exfalso
      unfold lookup at hl
      rw [h.rows, ← hci, cellAt_mem h.ok hi] at hl
      simp only [Option.map_some, Option.bind_some] at hl
      rw [if_pos (show c.toRow.gen = x.gen from hcg)] at hl
      cases hl
  | some u =>
    right
    have hu : s.get x = .ok (some u) := by rw [h.get hx.1, hl]
    obtain ⟨i, c, _, _, _, _, h2⟩ := get_row h hx hu
    exact ⟨i, u, hu, h2⟩

/-- C22, `apply`. With two different entities that both have a component, the closure gets both, the
first component becomes what the closure left, its modification timestamp is updated when tracked, and
every other entity keeps component and timestamps. In every other case the call panics. -/
theorem C22_apply {a b c d : Bool} {h : List (Event T)} {s : SparseSet T}
    (hr : Run (SparseSet.new a b c d) h s) {R : Type} (x y : EId) (hx : Valid x) (hy : Valid y)
    (f : T → T → T × R) (now : Nat) :
    (∀ u v, x ≠ y → s.get x = .ok (some u) → s.get y = .ok (some v) →
      ∃ s', s.apply x y f now = .ok ((f u v).2, s') ∧
        s'.observe x = (s.observe x).map (s.stamped now · (f u v).1) ∧
        (∀ e, Valid e → e ≠ x → s'.observe e = s.observe e)) ∧
    ((x = y ∨ s.get x = .ok none ∨ s.get y = .ok none) → s.apply x y f now = .error .panic) := by
  obtain ⟨L, hL⟩ := run_abs hr
  constructor
  · intro u v hne hu hv
    obtain ⟨i, ci, hi, hci, hcg, hui, h2⟩ := get_row hL hx hu
    obtain ⟨j, cj, hj, hcj, hdg, hvj, h3⟩ := get_row hL hy hv
    have hij : i ≠ j := by
      intro hh
      subst hh
      rw [hi] at hj
      injection hj with hj
      subst hj
      refine hne ?_
      cases x; cases y; simp_all
    rw [hL.shape] at h2 h3
    obtain ⟨k1, k2⟩ := apply_ok (s := s) hL.ok hi hj hij h2 h3 f now
    rw [← hL.shape] at k1
    subst hui hvj
    have hA := abs_write (Q := False) hL hi hci now (f ci.val cj.val).1 False.elim
    refine ⟨_, k1, ?_, ?_⟩
    · rw [hA.observe hx.1, hL.observe hx.1, write_observe hL hi hci hcg, if_pos rfl]; rfl
    · intro e he hex
      rw [hA.observe he.1, hL.observe he.1, write_observe hL hi hci hcg, if_neg hex]
  · intro hor
    unfold apply
    rcases none_index hL hx with ⟨_, h2⟩ | ⟨i, u, hu, h2⟩
    · simp only [h2, bind, Except.bind]
    rcases none_index hL hy with ⟨_, h3⟩ | ⟨j, v, hv, h3⟩
    · simp only [h2, h3, bind, Except.bind]
    rcases hor with hxy | hnone | hnone
    · subst hxy
      rw [h2] at h3
      injection h3 with h3
      injection h3 with h3
      simp only [h2, bind, Except.bind, h3, ne_eq, not_true_eq_false, if_false]
    · rw [hu] at hnone; injection hnone with hnone; cases hnone
    · rw [hv] at hnone; injection hnone with hnone; cases hnone

/-- C22, `apply_mut`: both components become what the closure left, both timestamps are updated. -/
theorem C22_apply_mut {a b c d : Bool} {h : List (Event T)} {s : SparseSet T}
    (hr : Run (SparseSet.new a b c d) h s) {R : Type} (x y : EId) (hx : Valid x) (hy : Valid y)
    (f : T → T → T × T × R) (now : Nat) :
    (∀ u v, x ≠ y → s.get x = .ok (some u) → s.get y = .ok (some v) →
      ∃ s', s.applyMut x y f now = .ok ((f u v).2.2, s') ∧
        s'.observe x = (s.observe x).map (s.stamped now · (f u v).1) ∧
        s'.observe y = (s.observe y).map (s.stamped now · (f u v).2.1) ∧
        (∀ e, Valid e → e ≠ x → e ≠ y → s'.observe e = s.observe e)) ∧
    ((x = y ∨ s.get x = .ok none ∨ s.get y = .ok none) → s.applyMut x y f now = .error .panic) := by
  obtain ⟨L, hL⟩ := run_abs hr
  constructor
  · intro u v hne hu hv
    obtain ⟨i, ci, hi, hci, hcg, hui, h2⟩ := get_row hL hx hu
    obtain ⟨j, cj, hj, hcj, hdg, hvj, h3⟩ := get_row hL hy hv
    have hij : i ≠ j := by
      intro hh
      subst hh
      rw [hi] at hj
      injection hj with hj
      subst hj
      refine hne ?_
      cases x; cases y; simp_all
    rw [hL.shape] at h2 h3
    obtain ⟨k1, k2⟩ := applyMut_ok (s := s) hL.ok hi hj hij h2 h3 f now
    rw [← hL.shape] at k1
    subst hui hvj
    have hA := abs_write (Q := False) hL hi hci now (f ci.val cj.val).1 False.elim
    have hj1 : (L.set i (ci.write s.trkMod now (f ci.val cj.val).1))[j]? = some cj := by
      rw [List.getElem?_set_ne hij]; exact hj
    have hB := abs_write (Q := False) hA hj1 hcj now (f ci.val cj.val).2.1 False.elim
    have hob : ∀ e, Valid e →
        (build s s.sparse ((L.set i (ci.write s.trkMod now (f ci.val cj.val).1)).set j
          (cj.write s.trkMod now (f ci.val cj.val).2.1))).observe e =
        .ok (if e = y then s.stamped now (Sto.observe (after (Sto.init a b c d) h) y) (f ci.val cj.val).2.1
          else if e = x then s.stamped now (Sto.observe (after (Sto.init a b c d) h) x) (f ci.val cj.val).1
          else Sto.observe (after (Sto.init a b c d) h) e) := by
      intro e he
      have := hB.observe he.1
      rw [write_observe hA hj1 hcj hdg] at this
      rw [write_observe hL hi hci hcg, write_observe hL hi hci hcg, if_neg (Ne.symm hne)] at this
      exact this
    refine ⟨_, k1, ?_, ?_, ?_⟩
    · rw [hob x hx, hL.observe hx.1, if_neg hne, if_pos rfl]; rfl
    · rw [hob y hy, hL.observe hy.1, if_pos rfl]; rfl
    · intro e he hex hey
      rw [hob e he, hL.observe he.1, if_neg hey, if_neg hex]
  · intro hor
    unfold applyMut
    rcases none_index hL hx with ⟨_, h2⟩ | ⟨i, u, hu, h2⟩
    · simp only [h2, bind, Except.bind]
    rcases none_index hL hy with ⟨_, h3⟩ | ⟨j, v, hv, h3⟩
    · simp only [h2, h3, bind, Except.bind]
    rcases hor with hxy | hnone | hnone
    · subst hxy
      rw [h2] at h3
      injection h3 with h3
      injection h3 with h3
      simp only [h2, bind, Except.bind, h3, ne_eq, not_true_eq_false, if_false]
    · rw [hu] at hnone; injection hnone with hnone; cases hnone
    · rw [hv] at hnone; injection hnone with hnone; cases hnone

example : demoState.get ⟨5, 2⟩ = .ok (some 21) ∧ demoState.get ⟨2, 0⟩ = .ok (some 31) ∧
    (demoState.applyMut ⟨5, 2⟩ ⟨2, 0⟩ (fun x y => (y, x, x + y)) 9).map (fun x => (x.1, x.2.data)) =
      .ok (52, [21, 31]) := by
  refine ⟨rfl, rfl, rfl⟩

end Verif.SparseSet
