import Verif.Lemmas.StorageSpec

/-!
# Component storages: C12, C13, C15–C22, C27

`Run (SparseSet.new ..) h s` are the executions of the model (`Verif/Spec/Storage.lean`), `after .. h`
is what the specification says about them.
-/
namespace Verif.SparseSet
open StoSpec
variable {T : Type}

/-- What the API shows about the component of a handle: the component and, when tracked, its two
timestamps. -/
def observe (s : SparseSet T) (e : EId) : Res (Option (T × Option Nat × Option Nat)) := do
  match ← s.indexOf e with
  | none => .ok none
  | some i => do
    let v ← vecGetU s.data i
    .ok (some (v, s.insertionData[i]?, s.modificationData[i]?))

/-- The same in the specification. -/
def Sto.observe (a : Sto T) (e : EId) : Option (T × Option Nat × Option Nat) :=
  (a.rows e.idx).bind fun r => if r.gen = e.gen then
    some (r.val, (if a.trkIns then some r.ins else none), (if a.trkMod then some r.mod else none)) else none

theorem Abs.observe {P : Prop} {s : SparseSet T} {a : Sto T} {L : List (Cell T)} (h : Abs P s a L) {e : EId}
    (he : e.gen < 65535) : s.observe e = .ok (Sto.observe a e) := by
  unfold SparseSet.observe Sto.observe
  rw [h.rows]
  have hsh := h.shape
  rcases indexOf_ok (s := s) h.ok e he with ⟨h1, h2⟩ | ⟨i, c, hi, hce, hcg, h2⟩
  · rw [← h.shape] at h2
    simp only [h2, bind, Except.bind]
    cases hc : cellAt L e.idx with
    | none => rfl
    | some c =>
      rw [cellAt_some h.ok] at hc
      show _ = Except.ok (if c.gen = e.gen then _ else _)
      rw [if_neg (fun hh => h1 c hc.1 ⟨hc.2, hh⟩)]
  · rw [← h.shape] at h2
    simp only [h2, bind, Except.bind]
    rw [(cellAt_some h.ok).2 ⟨List.mem_of_getElem? hi, hce⟩]
    show _ = Except.ok (if c.gen = e.gen then _ else _)
    rw [if_pos hcg, ← h.trkIns, ← h.trkMod, h.shape]
    simp only [build_data, vecGetU_map (fun x => x.val) hi, build_trkIns, build_trkMod]
    unfold build
    simp only
    congr 3
    congr 1
    · cases s.trkIns <;> simp [hi]; rfl
    · cases s.trkMod <;> simp [hi]; rfl

/-! ## C12 -/

/-- C12. After any history, reading a handle gives what the table of the specification holds for it. -/
theorem C12_reads_last_write {a b c d : Bool} {h : List (Event T)} {s : SparseSet T}
    (hr : Run (SparseSet.new a b c d) h s) (e : EId) (he : Valid e) :
    s.get e = .ok (lookup (after (Sto.init a b c d) h).rows e) := by
  obtain ⟨L, hL⟩ := run_abs hr
  exact hL.get he.1

/-- C12. The result of every call is the one the specification prescribes, and the state after it is
again described by it. -/
theorem C12_results {a b c d : Bool} {h : List (Event T)} {s s' : SparseSet T} {ev : Event T}
    (hr : Run (SparseSet.new a b c d) h s) (hs : Step s ev s') :
    let A := after (Sto.init a b c d) h
    (∀ e v now r, ev = .inserted e v now r → r.wasInserted = accepts A e ∧
      ∀ old, r = .componentOverride old ↔ lookup A.rows e = some old) ∧
    (∀ e now r, ev = .removed e now r → r = lookup A.rows e) ∧
    (∀ e now r, ev = .deleted e now r → r = lookup A.rows e ∧
      ∀ b, s.dynDelete e now = .ok (b, s') → b = r.isSome) := by
  obtain ⟨L, hL⟩ := run_abs hr
  simp only
  refine ⟨?_, ?_, ?_⟩
  · intro e v now r hev
    subst hev
    cases hs with
    | insert he hi =>
      obtain ⟨r', hook, sp', L', h1, h2, h3⟩ := insert_ok (s := s) hL.ok he v now
      rw [← hL.shape, hi] at h1
      injection h1 with h1
      injection h1 with hr' _
      subst hr'
      unfold accepts lookup
      rw [hL.rows]
      cases h3 with
      | new hn =>
        rw [cellAt_none.2 hn]
        exact ⟨rfl, fun old => ⟨(fun hh => by cases hh), (fun hh => by cases hh)⟩⟩
      | @override i c hj hce hcg =>
        rw [← hce, cellAt_mem hL.ok hj]
        refine ⟨by show true = decide (c.gen ≤ e.gen); simp [hcg], fun old => ?_⟩
        show _ ↔ (if c.gen = e.gen then some c.val else none) = some old
        rw [if_pos hcg]
        constructor
        · intro hh; injection hh with hh; rw [hh]
        · intro hh; injection hh with hh; rw [hh]
      | @newer i c hj hce hcg =>
        rw [← hce, cellAt_mem hL.ok hj]
        refine ⟨by show true = decide (c.gen ≤ e.gen); simp; omega, fun old => ?_⟩
        show _ ↔ (if c.gen = e.gen then some c.val else none) = some old
        rw [if_neg (by omega)]
        exact ⟨(fun hh => by cases hh), (fun hh => by cases hh)⟩
      | @older c hc hce hcg =>
        rw [(cellAt_some hL.ok).2 ⟨hc, hce⟩]
        refine ⟨by show false = decide (c.gen ≤ e.gen); simp; omega, fun old => ?_⟩
        show _ ↔ (if c.gen = e.gen then some c.val else none) = some old
        rw [if_neg (by omega)]
        exact ⟨(fun hh => by cases hh), (fun hh => by cases hh)⟩
  · intro e now r hev
    subst hev
    cases hs with
    | remove he hd => exact (abs_remove (Q := False) hL he hd False.elim).1
  · intro e now r hev
    subst hev
    cases hs with
    | delete he hg hd =>
      have hg' := hg
      rw [hL.get he.1] at hg'
      refine ⟨(by injection hg' with hg'; exact hg'.symm), ?_⟩
      intro b' hb
      exact (abs_delete (Q := False) hL he hg hb False.elim).1

/-- C12. No call on a reachable storage reads or writes out of bounds, panics or loops forever:
insertion, removal, deletion and reading with ids that exist, sorting with any result of the standard
sort, retaining with any closure, clearing, draining, and bulk insertion of at least one component. -/
theorem C12_total {a b c d : Bool} {h : List (Event T)} {s : SparseSet T}
    (hr : Run (SparseSet.new a b c d) h s) :
    (∀ e v now, Valid e → ∃ r s', s.insert e v now = .ok (r, s')) ∧
    (∀ e now, Valid e → ∃ r s', s.dynRemove e now = .ok (r, s')) ∧
    (∀ e now, Valid e → ∃ r s', s.dynDelete e now = .ok (r, s')) ∧
    (∀ e now g, Valid e → ∃ r s', s.modify e now g = .ok (r, s')) ∧
    (∀ e, Valid e → ∃ r, s.get e = .ok r) ∧
    (∀ perm, perm.Perm (List.range s.data.length) → ∃ s', s.sortWith perm = .ok s') ∧
    (∀ (σ : Type) (st : σ) f now, ∃ st' s', s.retain now st f = .ok (st', s')) ∧
    (∀ (σ : Type) (st : σ) f now, ∃ st' s', s.retainMut now st f = .ok (st', s')) ∧
    (∀ now, ∃ s', s.clear now = .ok s') ∧
    (∀ now, ∃ dr s', s.drain now = .ok (dr, s')) ∧
    (∀ start stamp vs, vs ≠ [] → start + vs.length ≤ EId.INDEX_MASK → (∀ e ∈ s.dense, e.idx < start) →
      ∃ s', s.bulkInsert ((List.range vs.length).map fun k => ⟨start + k, 0⟩) vs stamp = .ok s') := by
  obtain ⟨L, hL⟩ := run_abs hr
  have hsh := hL.shape
  have hmut : ∀ (σ : Type) (st : σ) f now, ∃ st' s', s.retainMut now st f = .ok (st', s') := by
    intro σ st f now
    unfold retainMut
    obtain ⟨sp', L', order, _, h2, _⟩ := retainMutLoop_ok f now L.length s s.sparse L st 0 hL.ok (by simp)
    rw [← hsh] at h2
    have : s.dense.length = L.length := by rw [hsh]; simp
    rw [this]
    exact ⟨_, _, h2⟩
  refine ⟨?_, ?_, ?_, ?_, ?_, ?_, ?_, hmut, ?_, ?_, ?_⟩
  · intro e v now he
    obtain ⟨r, hook, sp', L', h1, _⟩ := insert_ok (s := s) hL.ok he v now
    rw [← hsh] at h1; exact ⟨_, _, h1⟩
  · intro e now he
    obtain ⟨r, sp', L', h1, _⟩ := dynRemove_ok (s := s) hL.ok (.inl he.1) now
    rw [← hsh] at h1; exact ⟨_, _, h1⟩
  · intro e now he
    obtain ⟨r, sp', L', h1, _⟩ := dynDelete_ok (s := s) hL.ok (.inl he.1) now
    rw [← hsh] at h1; exact ⟨_, _, h1⟩
  · intro e now g he
    rcases modify_ok (s := s) hL.ok he.1 now g with ⟨_, h1⟩ | ⟨_, _, _, _, _, h1, _⟩ <;>
    · rw [← hsh] at h1; exact ⟨_, _, h1⟩
  · intro e he; exact ⟨_, hL.get he.1⟩
  · intro perm hp
    have : s.data.length = L.length := by rw [hsh]; simp
    rw [this] at hp
    obtain ⟨sp', L', h1, _⟩ := sortWith_ok (s := s) hL.ok hp
    rw [← hsh] at h1; exact ⟨_, h1⟩
  · intro σ st f now
    rw [retain_eq_retainMut]
    exact hmut _ _ _ _
  · intro now
    obtain ⟨sp', h1, _⟩ := clear_ok (s := s) hL.ok now
    rw [← hsh] at h1; exact ⟨_, h1⟩
  · intro now
    obtain ⟨sp', h1, _⟩ := drain_ok (s := s) hL.ok now
    rw [← hsh] at h1; exact ⟨_, _, h1⟩
  · intro start stamp vs hne hm hf
    obtain ⟨sp', h1, _⟩ := bulkInsert_ok (s := s) hL.ok start stamp vs hne hm (by
      intro c hc
      refine hf c.id ?_
      rw [hsh]; exact List.mem_map.2 ⟨c, hc, rfl⟩)
    rw [← hsh] at h1; exact ⟨_, h1⟩

/-- C12. `contains`, of the storage and of its table of indices, says whether a read gives something. -/
theorem C12_contains {a b c d : Bool} {h : List (Event T)} {s : SparseSet T}
    (hr : Run (SparseSet.new a b c d) h s) (e : EId) (he : Valid e) :
    s.contains e = .ok (lookup (after (Sto.init a b c d) h).rows e).isSome ∧
    s.sparse.contains e = .ok (lookup (after (Sto.init a b c d) h).rows e).isSome := by
  obtain ⟨L, hL⟩ := run_abs hr
  have h1 : s.contains e = .ok (lookup (after (Sto.init a b c d) h).rows e).isSome := by
    rw [hL.shape, contains_ok hL.ok e he.1]
    unfold readCell StoSpec.lookup
    rw [hL.rows]
    cases cellAt L e.idx <;> rfl
  refine ⟨h1, ?_⟩
  rw [← h1]
  unfold SparseArray.contains SparseSet.contains SparseSet.indexOf
  cases s.sparse.get e with
  | error f => rfl
  | ok x =>
    cases x with
    | none => rfl
    | some x =>
      simp only [bind, Except.bind]
      by_cases hx : e.gen = x.gen
      · simp [hx]
      · rw [if_neg hx]
        have : ¬ x.gen = e.gen := fun q => hx q.symm
        simp [this]

/-- C12. Reserving memory, for any slice of ids in any order, never fails and changes nothing but the
table of indices, in which no read or `contains` sees a difference. -/
theorem C12_reserve {a b c d : Bool} {h : List (Event T)} {s : SparseSet T}
    (hr : Run (SparseSet.new a b c d) h s) (ids : List EId) :
    ∃ s', s.bulkReserve ids = .ok s' ∧ s' = { s with sparse := s'.sparse } ∧
      ∀ e, Valid e → s'.get e = s.get e ∧ s'.contains e = s.contains e := by
  obtain ⟨L, hL⟩ := run_abs hr
  unfold bulkReserve
  cases h1 : ids.head? with
  | none => exact ⟨s, rfl, rfl, fun _ _ => ⟨rfl, rfl⟩⟩
  | some first =>
    cases h2 : ids.getLast? with
    | none => exact ⟨s, rfl, rfl, fun _ _ => ⟨rfl, rfl⟩⟩
    | some last =>
      obtain ⟨sp, g1, g2, g3⟩ := SparseArray.bulkAllocate_any hL.ok.wfa first last
      have hok : SOK sp L := ⟨g2, fun i c hc => by rw [g3]; exact hL.ok.hit i c hc,
        fun j hj => by rw [g3]; exact hL.ok.miss j hj, hL.ok.cells⟩
      have hsh : ({ s with sparse := sp } : SparseSet T) = build s sp L :=
        congrArg (fun s => { s with sparse := sp }) hL.shape
      refine ⟨{ s with sparse := sp }, ?_, rfl, fun e he => ?_⟩
      · simp only [g1, bind, Except.bind]
      · rw [hsh, get_ok hok e he.1, contains_ok hok e he.1]
        rw [hL.shape, get_ok hL.ok e he.1, contains_ok hL.ok e he.1]
        exact ⟨rfl, rfl⟩

/-- C12, in one line per call: an accepted insertion is read back, and other indices are not touched. -/
theorem C12_insert_get {a b c d : Bool} {h : List (Event T)} {s s' : SparseSet T}
    (hr : Run (SparseSet.new a b c d) h s) {e : EId} (he : Valid e) {v : T} {now : Nat}
    {r : InsertionResult T} (hi : s.insert e v now = .ok (r, s')) :
    (r ≠ .notInserted → s'.get e = .ok (some v)) ∧
    (∀ e', Valid e' → e'.idx ≠ e.idx → s'.get e' = s.get e') := by
  have hs := Step.insert he hi
  have hr' := hr.snoc hs
  have hres := (C12_results hr hs).1 e v now r rfl
  refine ⟨?_, ?_⟩
  · intro hne
    rw [C12_reads_last_write hr' e he]
    have hacc : accepts (after (Sto.init a b c d) h) e = true := by
      rw [← hres.1]; cases r <;> simp_all [InsertionResult.wasInserted]
    unfold after
    rw [List.foldl_append]
    show Except.ok (lookup (setRow (after (Sto.init a b c d) h).rows e.idx
      (insertRow (after (Sto.init a b c d) h) e v now)) e) = _
    unfold lookup setRow insertRow
    unfold accepts at hacc
    rw [if_pos rfl]
    cases hrow : (after (Sto.init a b c d) h).rows e.idx with
    | none => simp
    | some row =>
      rw [hrow] at hacc
      simp only [decide_eq_true_eq] at hacc
      simp only
      by_cases h1 : row.gen = e.gen
      · rw [if_pos h1]; simp [h1]
      · rw [if_neg h1, if_pos (by omega)]; simp
  · intro e' he' hne
    rw [C12_reads_last_write hr' e' he', C12_reads_last_write hr e' he']
    unfold after
    rw [List.foldl_append]
    show Except.ok (lookup (setRow (after (Sto.init a b c d) h).rows e.idx _) e') = _
    unfold lookup setRow
    rw [if_neg hne]
    rfl

/-- A history with an override, a stale handle, a removal, a sort and a retain. -/
def demoHist : List (Event Nat) :=
  [.inserted ⟨0, 0⟩ 10 1 .inserted, .inserted ⟨5, 2⟩ 20 2 .inserted, .inserted ⟨2, 0⟩ 30 3 .inserted,
   .inserted ⟨5, 2⟩ 21 4 (.componentOverride 20), .inserted ⟨5, 1⟩ 99 5 .notInserted, .sorted,
   .removed ⟨0, 0⟩ 6 (some 10), .wrote [(⟨2, 0⟩, 31)] 7]

/-- The sparse array of a small storage, to compare states by evaluation. -/
def chainOk {α : Type} : Res α → Option α
  | .ok a => some a
  | .error _ => none

def demoState : SparseSet Nat :=
  (chainOk (do
    let (_, s) ← (SparseSet.new true true true true : SparseSet Nat).insert ⟨0, 0⟩ 10 1
    let (_, s) ← s.insert ⟨5, 2⟩ 20 2
    let (_, s) ← s.insert ⟨2, 0⟩ 30 3
    let (_, s) ← s.insert ⟨5, 2⟩ 21 4
    let (_, s) ← s.insert ⟨5, 1⟩ 99 5
    let s ← s.sortWith [2, 0, 1]
    let (_, s) ← s.dynRemove ⟨0, 0⟩ 6
    let (_, s) ← s.modify ⟨2, 0⟩ 7 (fun _ => 31)
    pure s)).getD (SparseSet.new true true true true)

theorem demo_run : Run (SparseSet.new true true true true) demoHist demoState := by
  have h1 := (Run.nil (s0 := (SparseSet.new true true true true : SparseSet Nat))).snoc
    (Step.insert (e := ⟨0, 0⟩) (v := 10) (now := 1) (by decide) rfl)
  have h2 := h1.snoc (Step.insert (e := ⟨5, 2⟩) (v := 20) (now := 2) (by decide) rfl)
  have h3 := h2.snoc (Step.insert (e := ⟨2, 0⟩) (v := 30) (now := 3) (by decide) rfl)
  have h4 := h3.snoc (Step.insert (e := ⟨5, 2⟩) (v := 21) (now := 4) (by decide) rfl)
  have h5 := h4.snoc (Step.insert (e := ⟨5, 1⟩) (v := 99) (now := 5) (by decide) rfl)
  have h6 := h5.snoc (Step.sort (perm := [2, 0, 1]) (by decide) rfl)
  have h7 := h6.snoc (Step.remove (e := ⟨0, 0⟩) (now := 6) (by decide) rfl)
  have h8 := h7.snoc (Step.write (e := ⟨2, 0⟩) (v := 31) (now := 7) (by decide) rfl)
  exact h8

example : demoState.get ⟨5, 2⟩ = .ok (some 21) ∧ demoState.get ⟨5, 1⟩ = .ok none ∧
    demoState.get ⟨0, 0⟩ = .ok none ∧ demoState.get ⟨2, 0⟩ = .ok (some 31) := by decide
/-- Slices that are in order, that are not, and that are empty. -/
example (ids : List EId) : ∃ s', demoState.bulkReserve ids = .ok s' ∧ s'.get ⟨5, 2⟩ = .ok (some 21) := by
  obtain ⟨s', h1, _, h2⟩ := C12_reserve demo_run ids
  exact ⟨s', h1, (h2 ⟨5, 2⟩ (by unfold Valid; decide)).1.trans (by decide)⟩
example : NoTakeover demoHist := by
  intro e v now h
  simp [demoHist] at h

/-! ## C13 -/

/-- C13. While a storage holds the component of `(i, g)`, an older handle `(i, g')` reads nothing, writes
nothing, removes nothing, deletes nothing and is refused by insertion; in every case the component of
`(i, g)` and its timestamps stay as they were. -/
theorem C13_stale_handle {a b c d : Bool} {h : List (Event T)} {s : SparseSet T}
    (hr : Run (SparseSet.new a b c d) h s) {i g g' : Nat} (hv : Valid ⟨i, g⟩) (hg : g' < g) {x : T}
    (hx : s.get ⟨i, g⟩ = .ok (some x)) :
    s.get ⟨i, g'⟩ = .ok none ∧
    (∀ v now, ∃ s', s.insert ⟨i, g'⟩ v now = .ok (.notInserted, s') ∧
      s'.observe ⟨i, g⟩ = s.observe ⟨i, g⟩) ∧
    (∀ now, ∃ s', s.dynRemove ⟨i, g'⟩ now = .ok (none, s') ∧ s'.observe ⟨i, g⟩ = s.observe ⟨i, g⟩) ∧
    (∀ now, ∃ s', s.dynDelete ⟨i, g'⟩ now = .ok (false, s') ∧ s'.observe ⟨i, g⟩ = s.observe ⟨i, g⟩) ∧
    (∀ now f, s.modify ⟨i, g'⟩ now f = .ok (false, s)) := by
  obtain ⟨L, hL⟩ := run_abs hr
  have hv' : Valid ⟨i, g'⟩ := ⟨Nat.lt_trans hg hv.1, hv.2⟩
  rw [hL.get hv.1] at hx
  injection hx with hx
  generalize hA : after (Sto.init a b c d) h = A at hL hx
  obtain ⟨r, hrow, hrg⟩ : ∃ r, A.rows i = some r ∧ r.gen = g := by
    unfold lookup at hx
    cases hrow : A.rows i with
    | none => simp only at hx; rw [hrow] at hx; cases hx
    | some r =>
      simp only at hx; rw [hrow] at hx
      refine ⟨r, rfl, ?_⟩
      simp only [Option.bind_some] at hx
      split at hx
      · assumption
      · cases hx
  have hlook : lookup A.rows ⟨i, g'⟩ = none := by
    unfold lookup; simp only; rw [hrow]; simp only [Option.bind_some]; rw [if_neg (by omega)]
  have hrem : setRow A.rows i (removeRow A ⟨i, g'⟩) = A.rows := by
    refine setRow_self ?_
    unfold removeRow; simp only; rw [hrow]; simp only [Option.bind_some]; rw [if_neg (by omega)]
  have hobs : ∀ {P : Prop} {s' : SparseSet T} {A' : Sto T} {L' : List (Cell T)}, Abs P s' A' L' →
      A'.rows = A.rows → A'.trkIns = A.trkIns → A'.trkMod = A.trkMod →
      s'.observe ⟨i, g⟩ = s.observe ⟨i, g⟩ := by
    intro P s' A' L' h' h1 h2 h3
    rw [h'.observe hv.1, hL.observe hv.1]
    unfold Sto.observe
    rw [h1, h2, h3]
  refine ⟨?_, ?_, ?_, ?_, ?_⟩
  · rw [hL.get hv'.1, hlook]
  · intro v now
    obtain ⟨r0, s', hi⟩ := (C12_total hr).1 ⟨i, g'⟩ v now hv'
    have hs := Step.insert hv' hi
    have hres := (C12_results hr hs).1 _ _ _ _ rfl
    rw [hA] at hres
    have hacc : accepts A ⟨i, g'⟩ = false := by
      unfold accepts; simp only; rw [hrow]; simp only [decide_eq_false_iff_not]; omega
    rw [hacc] at hres
    have hr0 : r0 = .notInserted := by
      cases r0 <;> simp_all [InsertionResult.wasInserted]
    subst hr0
    refine ⟨s', hi, ?_⟩
    obtain ⟨L', hL'⟩ := abs_step (Q := False) hL hs False.elim False.elim
    refine hobs hL' ?_ rfl rfl
    show setRow A.rows i (insertRow A ⟨i, g'⟩ v now) = A.rows
    refine setRow_self ?_
    unfold insertRow; simp only; rw [hrow]; simp only
    rw [if_neg (by omega), if_neg (by omega)]
  · intro now
    obtain ⟨r0, s', hi⟩ := (C12_total hr).2.1 ⟨i, g'⟩ now hv'
    have hres := (abs_remove (Q := False) hL hv' hi False.elim)
    obtain ⟨h1, L', hL'⟩ := hres
    rw [hlook] at h1
    subst h1
    exact ⟨s', hi, hobs hL' hrem rfl rfl⟩
  · intro now
    obtain ⟨r0, s', hi⟩ := (C12_total hr).2.2.1 ⟨i, g'⟩ now hv'
    have hg0 : s.get ⟨i, g'⟩ = .ok none := by rw [hL.get hv'.1, hlook]
    obtain ⟨h1, L', hL'⟩ := abs_delete (Q := False) hL hv' hg0 hi False.elim
    subst h1
    exact ⟨s', hi, hobs hL' hrem rfl rfl⟩
  · intro now f
    rcases modify_ok (s := s) hL.ok hv'.1 now f with ⟨_, h1⟩ | ⟨k, c, hk, hce, hcg, _⟩
    · rw [← hL.shape] at h1; exact h1
    · have hcell := cellAt_mem hL.ok hk
      have hrow' := hL.rows i
      rw [← show c.id.idx = i from hce, hcell] at hrow'
      rw [show c.id.idx = i from hce, hrow] at hrow'
      simp only [Option.map_some, Option.some.injEq] at hrow'
      have : r.gen = c.gen := by rw [hrow']; rfl
      simp only at hcg
      omega

example : demoState.get ⟨5, 2⟩ = .ok (some 21) ∧ Valid ⟨5, 2⟩ ∧ 1 < 2 := by decide

/-! ## C15 -/

/-- C15. `remove(e)` returns the component iff `e` had one; afterwards `e` has none; every entity with
another index keeps its component and both timestamps, and so do newer entities with the same index. -/
theorem C15_remove_partial {a b c d : Bool} {h : List (Event T)} {s : SparseSet T}
    (hr : Run (SparseSet.new a b c d) h s) (e : EId) (he : Valid e) (now : Nat) :
    ∃ r s', s.dynRemove e now = .ok (r, s') ∧ s.get e = .ok r ∧ s'.get e = .ok none ∧
      ∀ e', Valid e' → (e'.idx ≠ e.idx ∨ e.gen < e'.gen) → s'.observe e' = s.observe e' := by
  obtain ⟨L, hL⟩ := run_abs hr
  obtain ⟨r, s', hi⟩ := (C12_total hr).2.1 e now he
  obtain ⟨h1, L', hL'⟩ := abs_remove (Q := False) hL he hi False.elim
  refine ⟨r, s', hi, ?_, ?_, ?_⟩
  · rw [hL.get he.1, h1]
  · rw [hL'.get he.1]
    show Except.ok (lookup (setRow _ e.idx (removeRow _ e)) e) = _
    unfold lookup setRow removeRow
    rw [if_pos rfl]
    cases (after (Sto.init a b c d) h).rows e.idx with
    | none => rfl
    | some row =>
      simp only [Option.bind_some]
      split
      · rfl
      · rw [Option.bind_some, if_neg (by omega)]
  · intro e' he' hne
    rw [hL'.observe he'.1, hL.observe he'.1]
    show Except.ok (Sto.observe { (after (Sto.init a b c d) h) with
        rows := setRow (after (Sto.init a b c d) h).rows e.idx (removeRow _ e), removed := _, remCalls := _ } e') = _
    unfold Sto.observe setRow removeRow
    simp only
    by_cases hidx : e'.idx = e.idx
    · rw [if_pos hidx, hidx]
      cases (after (Sto.init a b c d) h).rows e.idx with
      | none => rfl
      | some row =>
        simp only [Option.bind_some]
        split
        · rename_i hle
          rw [Option.bind_none, if_neg]
          rcases hne with hne | hne
          · exact absurd hidx hne
          · omega
        · rfl
    · rw [if_neg hidx]

/-- C15. A second removal of the same entity returns nothing. -/
theorem C15_remove_once {a b c d : Bool} {h : List (Event T)} {s s' : SparseSet T}
    (hr : Run (SparseSet.new a b c d) h s) {e : EId} (he : Valid e) {now : Nat} {r : Option T}
    (hs : s.dynRemove e now = .ok (r, s')) (now' : Nat) :
    ∃ s'', s'.dynRemove e now' = .ok (none, s'') := by
  have hr' := hr.snoc (Step.remove he hs)
  obtain ⟨r1, s1, h1, _, h3, _⟩ := C15_remove_partial hr e he now
  rw [hs] at h1
  injection h1 with h1
  injection h1 with _ h1
  subst h1
  obtain ⟨r2, s2, g1, g2, _⟩ := C15_remove_partial hr' e he now'
  rw [h3] at g2
  injection g2 with g2
  subst g2
  exact ⟨s2, g1⟩

example : demoState.dynRemove ⟨5, 2⟩ 9 ≠ demoState.dynRemove ⟨5, 1⟩ 9 := by decide

/-! ## C16 -/

/-- C16. The removal log is exactly the specification's: one `(entity, timestamp)` per successful removal
or drained component since it was last cleared, in order. -/
theorem C16_removed_log {a b c d : Bool} {h : List (Event T)} {s : SparseSet T}
    (hr : Run (SparseSet.new a b c d) h s) :
    s.removalData = (after (Sto.init a b c d) h).removed := by
  obtain ⟨L, hL⟩ := run_abs hr; exact hL.removed

/-- C16. The deletion log is exactly the specification's, provided no component was ever inserted over
the component of an older entity (see `C16_fails`). -/
theorem C16_deleted_log_partial {a b c d : Bool} {h : List (Event T)} {s : SparseSet T}
    (hr : Run (SparseSet.new a b c d) h s) (hn : NoTakeover h) :
    s.deletionData = (after (Sto.init a b c d) h).deleted := by
  obtain ⟨L, hL⟩ := run_abs hr; exact hL.deleted hn

/-- C16. A failed removal or deletion logs nothing, a successful one logs itself. -/
theorem C16_one_entry {a b c d : Bool} {h : List (Event T)} {s s' : SparseSet T}
    (hr : Run (SparseSet.new a b c d) h s) {e : EId} (he : Valid e) (now : Nat) :
    (∀ r, s.dynRemove e now = .ok (r, s') → s'.deletionData = s.deletionData ∧
      s'.removalData = s.removalData ++ (if s.trkRem && r.isSome then [(e, now)] else [])) ∧
    (∀ r, s.dynDelete e now = .ok (r, s') → s'.removalData = s.removalData ∧
      ∃ o, s.get e = .ok o ∧ r = o.isSome ∧ s'.deletionData = s.deletionData ++
        match o with
        | some v => if s.trkDel then [(e, now, v)] else []
        | none => []) := by
  obtain ⟨L, hL⟩ := run_abs hr
  refine ⟨?_, ?_⟩
  · intro r hi
    obtain ⟨r', sp', L', h1, h2, h3⟩ := dynRemove_ok (s := s) hL.ok (.inl he.1) now
    rw [← hL.shape, hi] at h1
    injection h1 with h1
    injection h1 with hr' hs'
    subst hr'; subst hs'
    cases r with
    | none => simp [build]
    | some v =>
      simp only [callRem_eq]
      cases s.trkRem <;> simp [build]
  · intro r hi
    obtain ⟨r', sp', L', h1, h2, h3⟩ := dynDelete_ok (s := s) hL.ok (.inl he.1) now
    rw [← hL.shape, hi] at h1
    injection h1 with h1
    injection h1 with hr' hs'
    subst hs'
    obtain ⟨_, _, hl⟩ := removeRow_rows hL h2 h3
    refine ⟨?_, r', by rw [hL.get he.1, hl], hr', ?_⟩
    · cases r' with
      | none => rfl
      | some v => simp only [noteDel_eq]; rfl
    · cases r' with
      | none => simp [build]
      | some v => simp only [noteDel_eq]; cases s.trkDel <;> simp [build]

/-- The storage after inserting for `(0,1)` and then for the newer `(0,2)`. -/
def takeover : SparseSet Nat :=
  (chainOk (do
    let s := (SparseSet.new true true true true : SparseSet Nat).setOnRemoval true
    let (_, s) ← s.insert ⟨0, 1⟩ 10 1
    let (_, s) ← s.insert ⟨0, 2⟩ 20 2
    pure s)).getD (SparseSet.new true true true true)

theorem takeover_run : Run (SparseSet.new true true true true)
    [.onRemoval true, .inserted ⟨0, 1⟩ 10 1 .inserted, .inserted ⟨0, 2⟩ 20 2 .otherComponentOverride]
    takeover := by
  have h0 := (Run.nil (s0 := (SparseSet.new true true true true : SparseSet Nat))).snoc
    (Step.onRemoval (b := true))
  have h1 := h0.snoc (Step.insert (e := ⟨0, 1⟩) (v := 10) (now := 1) (by decide) rfl)
  have h2 := h1.snoc (Step.insert (e := ⟨0, 2⟩) (v := 20) (now := 2) (by decide) rfl)
  exact h2

/-- C16 is false of the code after a component was inserted over the one of an older entity: the stored
id becomes the bitwise or of the two ids (`copy_index_gen`), here `(0,3)`, and `retain` then deletes the
component without logging it, although deletions are tracked. -/
theorem C16_fails : ∃ (h : List (Event Nat)) (s s' : SparseSet Nat) (calls : List (Call Nat)),
    Run (SparseSet.new true true true true) h s ∧ s.get ⟨0, 2⟩ = .ok (some 20) ∧
    s.dense = [⟨0, 3⟩] ∧
    s.retain 5 ((), []) (recordingRef fun _ _ _ => (false, ())) = .ok (((), calls), s') ∧
    s'.get ⟨0, 2⟩ = .ok none ∧ s.trkDel = true ∧ s'.deletionData = [] :=
  ⟨_, takeover, _, _, takeover_run, rfl, rfl, rfl, rfl, rfl, rfl⟩

example : demoState.removalData = [(⟨0, 0⟩, 6)] := by decide

/-! ## C17 and C27 -/

/-- C17 for the call the world makes on each storage. -/
theorem C17_storage_clears_both (s : SparseSet T) :
    s.storageClearAllRemovedAndDeleted.removalData = [] ∧
    s.storageClearAllRemovedAndDeleted.deletionData = [] ∧
    ∀ e, s.storageClearAllRemovedAndDeleted.observe e = s.observe e := ⟨rfl, rfl, fun _ => rfl⟩

/-- C17 is false of the call the views make: `deleted()` still lists the deletion. -/
theorem C17_fails : ∃ (h : List (Event Nat)) (s : SparseSet Nat),
    Run (SparseSet.new true true true true) h s ∧ s.deletionData = [(⟨0, 0⟩, 2, 10)] ∧
    s.clearAllRemovedAndDeleted.deletionData = [(⟨0, 0⟩, 2, 10)] := by
  have h1 := (Run.nil (s0 := (SparseSet.new true true true true : SparseSet Nat))).snoc
    (Step.insert (e := ⟨0, 0⟩) (v := 10) (now := 1) (by decide) rfl)
  have h2 := h1.snoc (Step.delete (e := ⟨0, 0⟩) (now := 2) (by decide) rfl rfl)
  exact ⟨_, _, h2, rfl, rfl⟩

/-- C17, what does hold for the views' call: the removal log is emptied and nothing else changes. -/
theorem C17_view_clears_removed_partial (s : SparseSet T) :
    s.clearAllRemovedAndDeleted.removalData = [] ∧
    s.clearAllRemovedAndDeleted.deletionData = s.deletionData ∧
    ∀ e, s.clearAllRemovedAndDeleted.observe e = s.observe e := ⟨rfl, rfl, fun _ => rfl⟩

/-- C27, what holds: precisely the entries with a timestamp above `t` stay, in order, and nothing else
changes. The entries of timestamp `t` itself, which are not older than `t`, are dropped (`C27_fails`). -/
theorem C27_older_than_partial (s : SparseSet T) (t : Nat) :
    (s.clearAllRemovedAndDeletedOlderThan t).removalData.Sublist s.removalData ∧
    (s.clearAllRemovedAndDeletedOlderThan t).deletionData.Sublist s.deletionData ∧
    (∀ x, (s.clearAllRemovedAndDeletedOlderThan t).removalData.count x =
      if t < x.2 then s.removalData.count x else 0) ∧
    (∀ e n v, (e, n, v) ∈ (s.clearAllRemovedAndDeletedOlderThan t).deletionData ↔
      (e, n, v) ∈ s.deletionData ∧ t < n) ∧
    (∀ e, (s.clearAllRemovedAndDeletedOlderThan t).observe e = s.observe e) := by
  refine ⟨List.filter_sublist, List.filter_sublist, ?_, ?_, fun _ => rfl⟩
  · intro x
    simp only [clearAllRemovedAndDeletedOlderThan]
    split
    · rename_i h; rw [List.count_filter (by simpa using h)]
    · rename_i h
      rw [List.count_eq_zero]
      intro hx
      rw [List.mem_filter] at hx
      exact h (by simpa using hx.2)
  · intro e n v; simp [clearAllRemovedAndDeletedOlderThan]

/-- C27 for the two calls on one log: precisely the entries with a timestamp above `t` stay, in order; the other log, the components
and their timestamps stay as they are. -/
theorem C27_one_log_partial (s : SparseSet T) (t : Nat) :
    (s.clearAllRemovedOlderThan t).removalData = s.removalData.filter (fun x => decide (t < x.2)) ∧
    (s.clearAllRemovedOlderThan t).deletionData = s.deletionData ∧
    (s.clearAllDeletedOlderThan t).deletionData = s.deletionData.filter (fun x => decide (t < x.2.1)) ∧
    (s.clearAllDeletedOlderThan t).removalData = s.removalData ∧
    (∀ e, (s.clearAllRemovedOlderThan t).observe e = s.observe e ∧ (s.clearAllDeletedOlderThan t).observe e = s.observe e) :=
  ⟨rfl, rfl, rfl, rfl, fun _ => ⟨rfl, rfl⟩⟩

/-- `clear_all_removed` and `clear_all_deleted` empty one log and touch nothing else. -/
theorem C17_one_log (s : SparseSet T) :
    s.clearAllRemoved.removalData = [] ∧ s.clearAllRemoved.deletionData = s.deletionData ∧
    s.clearAllDeleted.deletionData = [] ∧ s.clearAllDeleted.removalData = s.removalData ∧
    (∀ e, s.clearAllRemoved.observe e = s.observe e ∧ s.clearAllDeleted.observe e = s.observe e) :=
  ⟨rfl, rfl, rfl, rfl, fun _ => ⟨rfl, rfl⟩⟩

/-- C27 is false of the code at the boundary: an entry made at `t` is dropped. `get_tracking_timestamp`
returns the timestamp the next borrow will use, so this is what the next borrow removes. -/
theorem C27_fails : ∃ (h : List (Event Nat)) (s : SparseSet Nat),
    Run (SparseSet.new true true true true) h s ∧ s.removalData = [(⟨0, 0⟩, 2)] ∧
    (s.clearAllRemovedAndDeletedOlderThan 2).removalData = [] := by
  have h1 := (Run.nil (s0 := (SparseSet.new true true true true : SparseSet Nat))).snoc
    (Step.insert (e := ⟨0, 0⟩) (v := 10) (now := 1) (by decide) rfl)
  have h2 := h1.snoc (Step.remove (e := ⟨0, 0⟩) (now := 2) (by decide) rfl)
  exact ⟨_, _, h2, rfl, rfl⟩

/-! ## C18 -/

/-- The rows of a storage as they lie in memory: entity, component and the two timestamps. -/
def rowsOf (s : SparseSet T) : List (Option EId × Option T × Option Nat × Option Nat) :=
  (List.range s.dense.length).map fun i =>
    (s.dense[i]?, s.data[i]?, s.insertionData[i]?, s.modificationData[i]?)

theorem rowsOf_build (s : SparseSet T) (sp) (L : List (Cell T)) : rowsOf (build s sp L) =
    L.map fun c => (some c.id, some c.val, (if s.trkIns then some c.ins else none),
      (if s.trkMod then some c.mod else none)) := by
  apply List.ext_getElem?
  intro i
  unfold rowsOf
  simp only [build_dense, build_data, List.length_map, List.getElem?_map]
  rcases Nat.lt_or_ge i L.length with hi | hi
  · rw [List.getElem?_range hi, List.getElem?_eq_getElem hi]
    unfold build
    cases s.trkIns <;> cases s.trkMod <;> simp [List.getElem?_eq_getElem hi]
  · rw [List.getElem?_eq_none (by simpa using hi), List.getElem?_eq_none hi]; rfl

/-- C18. Let `perm` be what the standard sort makes of `0..len` (some reordering whose components are in
order under `le`). Then `sort_unstable_by` ends, the components are in order, the rows are a permutation
of the rows before with nothing torn apart, and every entity still reads its own component and
timestamps. -/
theorem C18_sort {a b c d : Bool} {h : List (Event T)} {s : SparseSet T}
    (hr : Run (SparseSet.new a b c d) h s) (le : T → T → Prop) (perm : List Nat)
    (hp : perm.Perm (List.range s.data.length))
    (hsorted : List.Pairwise (fun i j => ∀ x y, s.data[i]? = some x → s.data[j]? = some y → le x y) perm) :
    ∃ s', s.sortWith perm = .ok s' ∧ s'.data.Pairwise le ∧ (rowsOf s').Perm (rowsOf s) ∧
      (∀ e, Valid e → s'.observe e = s.observe e) ∧ s'.removalData = s.removalData ∧
      s'.deletionData = s.deletionData := by
  obtain ⟨L, hL⟩ := run_abs hr
  have hdata : s.data = L.map (·.val) := by rw [hL.shape]; rfl
  have hp' := hp
  rw [hdata, List.length_map] at hp'
  obtain ⟨sp', L', h1, h2, h3, h4, h5⟩ := sortWith_ok (s := s) hL.ok hp'
  rw [← hL.shape] at h1
  have hL'eq : L' = perm.filterMap (fun k => L[k]?) := by
    have hin : ∀ k ∈ perm, (L[k]?).isSome := by
      intro k hk
      have := List.mem_range.1 (hp'.mem_iff.1 hk)
      rw [List.getElem?_eq_getElem this]; rfl
    have key : ∀ (p : List Nat), (∀ k ∈ p, (L[k]?).isSome) → ∀ i : Nat,
        (p.filterMap (fun k => L[k]?))[i]? = (p[i]?).bind (L[·]?) := by
      intro p
      induction p with
      | nil => intro _ i; rfl
      | cons k p ih =>
        intro hin i
        have hk := hin k (by simp)
        rw [Option.isSome_iff_exists] at hk
        obtain ⟨x, hx⟩ := hk
        rw [List.filterMap_cons, hx]
        cases i with
        | zero => simp [hx]
        | succ i => simp only [List.getElem?_cons_succ]; exact ih (fun q hq => hin q (by simp [hq])) i
    apply List.ext_getElem?
    intro i
    rw [h4, key perm hin]
  refine ⟨_, h1, ?_, ?_, ?_, rfl, rfl⟩
  · rw [build_data, List.pairwise_map, hL'eq, List.pairwise_filterMap]
    refine hsorted.imp ?_
    intro i j hij x hx y hy
    exact hij x.val y.val (by rw [hdata, List.getElem?_map, hx]; rfl)
      (by rw [hdata, List.getElem?_map, hy]; rfl)
  · rw [rowsOf_build]
    conv => rhs; rw [hL.shape, rowsOf_build]
    refine List.Perm.map _ ?_
    rw [hL'eq]
    refine (hp'.filterMap _).trans ?_
    have : (List.range L.length).filterMap (fun k => L[k]?) = L := by
      apply List.ext_getElem?
      intro i
      have key : ∀ (p : List Nat), (∀ k ∈ p, (L[k]?).isSome) → ∀ i : Nat,
          (p.filterMap (fun k => L[k]?))[i]? = (p[i]?).bind (L[·]?) := by
        intro p
        induction p with
        | nil => intro _ i; rfl
        | cons k p ih =>
          intro hin i
          have hk := hin k (by simp)
          rw [Option.isSome_iff_exists] at hk
          obtain ⟨x, hx⟩ := hk
          rw [List.filterMap_cons, hx]
          cases i with
          | zero => simp [hx]
          | succ i => simp only [List.getElem?_cons_succ]; exact ih (fun q hq => hin q (by simp [hq])) i
      rw [key _ (by
        intro k hk
        rw [List.getElem?_eq_getElem (List.mem_range.1 hk)]; rfl)]
      rcases Nat.lt_or_ge i L.length with hi | hi
      · rw [List.getElem?_range hi]; rfl
      · rw [List.getElem?_eq_none (by simpa using hi), List.getElem?_eq_none hi]; rfl
    rw [this]
  · intro e he
    obtain ⟨L2, hL2⟩ := abs_step (Q := False) hL (Step.sort hp h1) False.elim False.elim
    rw [hL2.observe he.1, hL.observe he.1]
    rfl

/-- The hypotheses of C18 on a storage holding 30, 10, 20. -/
example : ∃ (h : List (Event Nat)) (s s' : SparseSet Nat), Run (SparseSet.new true true true true) h s ∧
    s.data = [30, 10, 20] ∧ [1, 2, 0].Perm (List.range s.data.length) ∧
    List.Pairwise (fun i j => ∀ x y, s.data[i]? = some x → s.data[j]? = some y → x ≤ y) [1, 2, 0] ∧
    s.sortWith [1, 2, 0] = .ok s' ∧ s'.data = [10, 20, 30] := by
  have h1 := (Run.nil (s0 := (SparseSet.new true true true true : SparseSet Nat))).snoc
    (Step.insert (e := ⟨0, 0⟩) (v := 30) (now := 1) (by decide) rfl)
  have h2 := h1.snoc (Step.insert (e := ⟨5, 2⟩) (v := 10) (now := 2) (by decide) rfl)
  have h3 := h2.snoc (Step.insert (e := ⟨2, 0⟩) (v := 20) (now := 3) (by decide) rfl)
  refine ⟨_, _, _, h3, rfl, by decide, ?_, rfl, rfl⟩
  change List.Pairwise (fun i j => ∀ x y, ([30, 10, 20] : List Nat)[i]? = some x →
    ([30, 10, 20] : List Nat)[j]? = some y → x ≤ y) [1, 2, 0]
  simp

end Verif.SparseSet
