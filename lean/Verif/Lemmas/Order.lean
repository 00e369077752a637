import Verif.Model.CreateWorkload

/-! # `order_systems`: what it writes -/
namespace Verif.Sched

variable {W ε : Type}

/-! ## Sets of ids -/

theorem mem_addId (l : List Nat) (x y : Nat) : y ∈ addId l x ↔ y = x ∨ y ∈ l := by
  induction l with
  | nil => simp [addId]
  | cons a t ih =>
    unfold addId
    by_cases h1 : x < a
    · simp [h1]
    · by_cases h2 : x = a
      · subst h2; simp
      · simp only [h1, h2, if_false, List.mem_cons, ih]
        constructor
        · rintro (h | h | h)
          · exact .inr (.inl h)
          · exact .inl h
          · exact .inr (.inr h)
        · rintro (h | h | h)
          · exact .inr (.inl h)
          · exact .inl h
          · exact .inr (.inr h)

/-- The vector stays sorted without duplicates, which is what the binary search of the code relies on. -/
theorem addId_sorted (l : List Nat) (x : Nat) (h : l.Pairwise (· < ·)) :
    (addId l x).Pairwise (· < ·) := by
  induction l with
  | nil => simp [addId]
  | cons a t ih =>
    have ht := (List.pairwise_cons.mp h).2
    have ha := (List.pairwise_cons.mp h).1
    unfold addId
    by_cases h1 : x < a
    · simp only [h1, if_true]
      refine List.pairwise_cons.mpr ⟨?_, h⟩
      intro y hy
      rcases List.mem_cons.mp hy with rfl | hy
      · exact h1
      · exact Nat.lt_trans h1 (ha y hy)
    · by_cases h2 : x = a
      · simp only [h2, Nat.lt_irrefl, if_false, if_true]; exact h
      · simp only [h1, h2, if_false]
        refine List.pairwise_cons.mpr ⟨?_, ih ht⟩
        intro y hy
        rcases (mem_addId t x y).mp hy with rfl | hy
        · omega
        · exact ha y hy

theorem mem_foldl_addId (ids l : List Nat) (y : Nat) :
    y ∈ ids.foldl addId l ↔ y ∈ l ∨ y ∈ ids := by
  induction ids generalizing l with
  | nil => simp
  | cons a t ih =>
    simp only [List.foldl_cons, ih, mem_addId, List.mem_cons]
    constructor
    · rintro ((h | h) | h)
      · exact .inr (.inl h)
      · exact .inl h
      · exact .inr (.inr h)
    · rintro (h | h | h)
      · exact .inl (.inr h)
      · exact .inl (.inl h)
      · exact .inr h

theorem mem_retainIds (l : List Nat) (tags : List Label) (x : Nat) :
    x ∈ retainIds l tags ↔ x ∈ l ∧ Label.unique x ∉ tags := by
  unfold retainIds
  simp

/-! ## Conflicts -/

theorem conflictT_symm (a b : TypeInfo) : conflictT a b = conflictT b a := by
  unfold conflictT
  cases a.threadSafe <;> cases b.threadSafe <;> cases a.exclusive <;> cases b.exclusive <;>
    by_cases h : a.storage = b.storage <;> by_cases h1 : a.storage = allStorages <;>
    by_cases h2 : b.storage = allStorages <;> simp_all [eq_comm]

theorem conflict_iff (a b : List TypeInfo) :
    conflict a b = true ↔ ∃ x ∈ a, ∃ y ∈ b, conflictT x y = true := by
  unfold conflict
  simp only [List.any_eq_true]

theorem conflict_symm (a b : List TypeInfo) : conflict a b = conflict b a := by
  have h : ∀ a b : List TypeInfo, conflict a b = true → conflict b a = true := by
    intro a b h
    obtain ⟨x, hx, y, hy, hc⟩ := (conflict_iff a b).mp h
    exact (conflict_iff b a).mpr ⟨y, hy, x, hx, by rw [conflictT_symm]; exact hc⟩
  cases h1 : conflict a b with
  | true => exact (h a b h1).symm
  | false =>
    cases h2 : conflict b a with
    | false => rfl
    | true => rw [h b a h2] at h1; cases h1

/-- Two systems that must run alone with respect to the main thread or the whole world conflict. -/
theorem single_conflict (a b : Sys W ε) (ha : a.single = true) (hb : b.single = true) :
    conflict a.borrows b.borrows = true := by
  unfold Sys.single at ha hb
  obtain ⟨x, hx, hx'⟩ := List.any_eq_true.mp ha
  obtain ⟨y, hy, hy'⟩ := List.any_eq_true.mp hb
  refine (conflict_iff _ _).mpr ⟨x, hx, y, hy, ?_⟩
  unfold conflictT
  simp only [Bool.or_eq_true, Bool.not_eq_true', decide_eq_true_eq] at hx' hy'
  rcases hx' with h | h
  · rcases hy' with h' | h'
    · simp [h, h']
    · simp [h']
  · simp [h]

/-! ## `setLast` -/

theorem setLast_snoc {α : Type} (l : List α) (x : α) (f : α → α) :
    setLast (l ++ [x]) f = l ++ [f x] := by
  unfold setLast
  simp

theorem setLast_range {α : Type} (n : Nat) (g : Nat → α) (f : α → α) :
    setLast ((List.range (n + 1)).map g) f
      = (List.range (n + 1)).map fun b => if b = n then f (g b) else g b := by
  rw [List.range_succ, List.map_append, List.map_append]
  simp only [List.map_cons, List.map_nil]
  rw [setLast_snoc]
  congr 1
  · apply List.map_congr_left
    intro b hb
    have : b ≠ n := by have := List.mem_range.mp hb; omega
    simp [this]

theorem length_setLast {α : Type} (l : List α) (f : α → α) : (setLast l f).length = l.length := by
  unfold setLast
  cases h : l.getLast? with
  | none => rfl
  | some x =>
    have : l ≠ [] := by intro e; subst e; simp at h
    have hl : 0 < l.length := List.length_pos_iff.mpr this
    simp only [List.length_append, List.length_dropLast, List.length_cons, List.length_nil]
    omega

theorem map_setLast {α β : Type} (l : List α) (f : α → α) (g : β → β) (p : α → β)
    (h : ∀ x, p (f x) = g (p x)) : (setLast l f).map p = setLast (l.map p) g := by
  rcases List.eq_nil_or_concat l with rfl | ⟨l', x, rfl⟩
  · rfl
  · simp only [List.concat_eq_append, List.map_append, List.map_cons, List.map_nil]
    rw [setLast_snoc, setLast_snoc, List.map_append, List.map_cons, List.map_nil, h]

/-! ## The data written by the loop agrees with the trace -/

/-- The systems of batch `b` according to the trace: the last single system, and the others. -/
def batchOf (trace : List (Nat × Sys W ε)) (b : Nat) : Option (Sys W ε) × List (Sys W ε) :=
  (((trace.filter fun p => p.1 == b && p.2.single).map (·.2)).getLast?,
   (trace.filter fun p => p.1 == b && !p.2.single).map (·.2))

/-- Reading a condition through its index; `none` (`usize::MAX`) is "no condition". -/
def resolve (R : List (Cond W ε)) : Option Nat → Option (Cond W ε)
  | none => none
  | some k => R[k]?

def Valid (R : List (Cond W ε)) (i : Option Nat) : Prop := ∀ k, i = some k → k < R.length

theorem resolve_append (R R' : List (Cond W ε)) (i : Option Nat) (h : Valid R i) :
    resolve (R ++ R') i = resolve R i := by
  cases i with
  | none => rfl
  | some k =>
    have := h k rfl
    show (R ++ R')[k]? = R[k]?
    rw [List.getElem?_append_left this]

theorem Valid.append {R : List (Cond W ε)} {i : Option Nat} (h : Valid R i) (R' : List (Cond W ε)) :
    Valid (R ++ R') i := by
  intro k hk
  have := h k hk
  rw [List.length_append]
  omega

structure DInv (o : Order W ε) : Prop where
  pos : 0 < o.info.length
  info : o.info = (List.range o.info.length).map (batchOf o.trace)
  bound : ∀ p ∈ o.trace, p.1 < o.info.length
  mono : o.trace.Pairwise fun p q => p.1 ≤ q.1
  sep : o.trace.Pairwise fun p q => p.1 = q.1 → conflict q.2.borrows p.2.borrows = false
  seq : o.sequential = o.trace.map (·.2.index)
  par : o.parallel = o.info.map fun b => (b.1.map (·.index), b.2.map (·.index))
  seqIf : o.sequentialRunIf.map (resolve o.runIfs) = o.trace.map (·.2.runIf)
  parIf : o.parallelRunIf.map (fun b => (resolve o.runIfs b.1, b.2.map (resolve o.runIfs)))
    = o.info.map fun b => (b.1.bind (·.runIf), b.2.map (·.runIf))
  seqVal : ∀ i ∈ o.sequentialRunIf, Valid o.runIfs i
  parVal1 : ∀ b ∈ o.parallelRunIf, Valid o.runIfs b.1
  parVal2 : ∀ b ∈ o.parallelRunIf, ∀ i ∈ b.2, Valid o.runIfs i

theorem batchOf_fresh (t : List (Nat × Sys W ε)) (n : Nat) (h : ∀ p ∈ t, p.1 < n) :
    batchOf t n = (none, []) := by
  have e1 : ∀ f : Sys W ε → Bool, t.filter (fun p => p.1 == n && f p.2) = [] := by
    intro f
    rw [List.filter_eq_nil_iff]
    intro p hp
    have := h p hp
    have : p.1 ≠ n := by omega
    simp [this]
  unfold batchOf
  rw [e1 Sys.single, e1 (fun s => !s.single)]
  rfl

theorem batchOf_snoc (t : List (Nat × Sys W ε)) (k : Nat) (s : Sys W ε) (b : Nat) :
    batchOf (t ++ [(k, s)]) b
      = if b = k then
          (if s.single then (some s, (batchOf t b).2) else ((batchOf t b).1, (batchOf t b).2 ++ [s]))
        else batchOf t b := by
  unfold batchOf
  by_cases hb : b = k
  · subst hb
    cases hs : s.single <;> simp [List.filter_append, hs]
  · have hb' : (k == b) = false := by simp [Ne.symm hb]
    simp [List.filter_append, hb, hb']

theorem mem_batch (t : List (Nat × Sys W ε)) (b : Nat) (s : Sys W ε) :
    s ∈ (batchOf t b).2 ↔ (b, s) ∈ t ∧ s.single = false := by
  unfold batchOf
  simp only [List.mem_map, List.mem_filter, Bool.and_eq_true, beq_iff_eq, Bool.not_eq_true']
  constructor
  · rintro ⟨p, ⟨hp, h1, h2⟩, rfl⟩
    exact ⟨h1 ▸ hp, h2⟩
  · rintro ⟨h, h2⟩
    exact ⟨(b, s), ⟨h, rfl, h2⟩, rfl⟩

/-- Inside a batch there is at most one single system, so `batch.0` is never overwritten. -/
theorem single_unique {t : List (Nat × Sys W ε)}
    (sep : t.Pairwise fun p q => p.1 = q.1 → conflict q.2.borrows p.2.borrows = false) (b : Nat) :
    (t.filter fun p => p.1 == b && p.2.single) = []
      ∨ ∃ s, (t.filter fun p => p.1 == b && p.2.single) = [(b, s)] ∧ s.single = true := by
  have h := sep.filter (fun p => p.1 == b && p.2.single)
  have hm : ∀ p ∈ (t.filter fun p => p.1 == b && p.2.single), p.1 = b ∧ p.2.single = true := by
    intro p hp
    have := (List.mem_filter.mp hp).2
    simpa using this
  generalize (t.filter fun p => p.1 == b && p.2.single) = l at h hm
  match l with
  | [] => exact .inl rfl
  | [p] =>
    have := hm p (by simp)
    exact .inr ⟨p.2, by rw [← this.1], this.2⟩
  | p :: q :: r =>
    exfalso
    have h1 := (List.pairwise_cons.mp h).1 q (by simp)
    have hp := hm p (by simp)
    have hq := hm q (by simp)
    have := h1 (by rw [hp.1, hq.1])
    rw [single_conflict q.2 p.2 hq.2 hp.2] at this
    cases this

theorem batch_single (t : List (Nat × Sys W ε))
    (sep : t.Pairwise fun p q => p.1 = q.1 → conflict q.2.borrows p.2.borrows = false)
    (b : Nat) (s : Sys W ε) :
    (batchOf t b).1 = some s ↔ (b, s) ∈ t ∧ s.single = true := by
  have key : ((b, s) ∈ t ∧ s.single = true) ↔ (b, s) ∈ (t.filter fun p => p.1 == b && p.2.single) := by
    simp [List.mem_filter]
  rw [key]
  unfold batchOf
  rcases single_unique sep b with h | ⟨s', h, hs'⟩
  · rw [h]; simp
  · rw [h]
    simp [eq_comm]

theorem batchConflict_false (t : List (Nat × Sys W ε))
    (sep : t.Pairwise fun p q => p.1 = q.1 → conflict q.2.borrows p.2.borrows = false)
    (b : Nat) (s : Sys W ε) :
    batchConflict (batchOf t b) s = false
      ↔ ∀ x, (b, x) ∈ t → conflict s.borrows x.borrows = false := by
  unfold batchConflict
  rw [Bool.or_eq_false_iff]
  constructor
  · rintro ⟨h1, h2⟩ x hx
    cases hs : x.single with
    | true =>
      rw [(batch_single t sep b x).mpr ⟨hx, hs⟩] at h1
      exact h1
    | false =>
      have := (mem_batch t b x).mpr ⟨hx, hs⟩
      rw [List.any_eq_false] at h2
      simpa using h2 x this
  · intro h
    constructor
    · cases hb : (batchOf t b).1 with
      | none => rfl
      | some x => exact h x ((batch_single t sep b x).mp hb).1
    · rw [List.any_eq_false]
      intro x hx
      rw [h x ((mem_batch t b x).mp hx).1]
      simp

theorem DInv.last {o : Order W ε} (h : DInv o) :
    o.info.getLast? = some (batchOf o.trace (o.info.length - 1)) := by
  have hp := h.pos
  rw [List.getLast?_eq_getElem?]
  conv => lhs; rw [h.info]
  simp only [List.length_map, List.length_range, List.getElem?_map]
  rw [List.getElem?_range (by omega)]
  rfl

theorem DInv.newBatch {o : Order W ε} (h : DInv o) : DInv o.newBatch := by
  have hl : o.newBatch.info.length = o.info.length + 1 := by simp [Order.newBatch]
  refine ⟨by omega, ?_, ?_, h.mono, h.sep, h.seq, ?_, h.seqIf, ?_, h.seqVal, ?_, ?_⟩
  · rw [hl, List.range_succ, List.map_append]
    show o.info ++ [(none, [])] = _
    rw [show o.newBatch.trace = o.trace from rfl, ← h.info]
    simp only [List.map_cons, List.map_nil]
    rw [batchOf_fresh o.trace o.info.length h.bound]
  · intro p hp
    have := h.bound p hp
    omega
  · show o.parallel ++ [(none, [])] = (o.info ++ [(none, [])]).map _
    rw [h.par]; simp
  · show (o.parallelRunIf ++ [(none, [])]).map _ = (o.info ++ [(none, [])]).map _
    rw [List.map_append, List.map_append]
    have := h.parIf
    show List.map (fun b => (resolve o.runIfs b.1, b.2.map (resolve o.runIfs))) o.parallelRunIf ++ _ = _
    rw [this]
    simp [resolve]
  · intro b hb
    rcases List.mem_append.mp hb with hb | hb
    · exact h.parVal1 b hb
    · rw [List.mem_singleton.mp hb]
      intro k hk; cases hk
  · intro b hb
    rcases List.mem_append.mp hb with hb | hb
    · exact h.parVal2 b hb
    · rw [List.mem_singleton.mp hb]
      intro i hi; cases hi

theorem openBatch_cases {o : Order W ε} (h : DInv o) (s : Sys W ε) :
    (o.openBatch s = o ∧ ∀ x, (o.info.length - 1, x) ∈ o.trace → conflict s.borrows x.borrows = false)
      ∨ o.openBatch s = o.newBatch := by
  unfold Order.openBatch
  rw [h.last]
  simp only
  cases hc : batchConflict (batchOf o.trace (o.info.length - 1)) s with
  | true => exact .inr (by simp)
  | false => exact .inl ⟨by simp, (batchConflict_false o.trace h.sep _ s).mp hc⟩

theorem DInv.openBatch {o : Order W ε} (h : DInv o) (s : Sys W ε) :
    DInv (o.openBatch s) ∧
    ∀ x, ((o.openBatch s).info.length - 1, x) ∈ (o.openBatch s).trace →
      conflict s.borrows x.borrows = false := by
  rcases openBatch_cases h s with ⟨he, hc⟩ | he
  · rw [he]; exact ⟨h, hc⟩
  · rw [he]
    refine ⟨h.newBatch, ?_⟩
    intro x hx
    have := h.bound _ hx
    have hl : o.newBatch.info.length = o.info.length + 1 := by simp [Order.newBatch]
    simp only [hl] at this
    omega

theorem setLast_mem {α : Type} {l : List α} {f : α → α} {y : α} (h : y ∈ setLast l f) :
    y ∈ l ∨ ∃ x ∈ l, y = f x := by
  rcases List.eq_nil_or_concat l with rfl | ⟨l', x, rfl⟩
  · exact .inl h
  · simp only [List.concat_eq_append] at h ⊢
    rw [setLast_snoc] at h
    rcases List.mem_append.mp h with h | h
    · exact .inl (List.mem_append_left _ h)
    · exact .inr ⟨x, by simp, List.mem_singleton.mp h⟩

theorem DInv.write {o : Order W ε} (h : DInv o) (s : Sys W ε) (c : Option Conflict)
    (hc : ∀ x, (o.info.length - 1, x) ∈ o.trace → conflict s.borrows x.borrows = false) :
    DInv (o.write s c) := by
  have hl : (o.write s c).info.length = o.info.length := by
    show (setLast o.info _).length = _
    exact length_setLast _ _
  obtain ⟨n, hn⟩ : ∃ n, o.info.length = n + 1 := ⟨o.info.length - 1, by have := h.pos; omega⟩
  have hinfo : (o.write s c).info = (List.range (n + 1)).map (batchOf (o.write s c).trace) := by
    show setLast o.info _ = _
    have hi := h.info
    rw [hn] at hi
    conv => lhs; rw [hi]
    rw [setLast_range]
    apply List.map_congr_left
    intro b _
    show _ = batchOf (o.trace ++ [(o.info.length - 1, s)]) b
    rw [batchOf_snoc, hn, Nat.add_sub_cancel]
  have hval : ∀ i, Valid o.runIfs i → Valid (o.write s c).runIfs i := fun i hi => hi.append _
  have hri : Valid (o.write s c).runIfs (s.runIfIndex o.runIfs.length)
      ∧ resolve (o.write s c).runIfs (s.runIfIndex o.runIfs.length)
        = s.runIf := by
    show Valid (o.runIfs ++ s.runIf.toList) _ ∧ resolve (o.runIfs ++ s.runIf.toList) _ = _
    unfold Sys.runIfIndex
    cases hr : s.runIf with
    | none => exact ⟨(fun k hk => by cases hk), rfl⟩
    | some c =>
      refine ⟨(fun k hk => ?_), ?_⟩
      · cases hk; simp
      · simp [resolve]
  have hres : ∀ i, Valid o.runIfs i → resolve (o.write s c).runIfs i = resolve o.runIfs i :=
    fun i hi => resolve_append _ _ i hi
  refine ⟨by rw [hl]; exact h.pos, by rw [hl, hn]; exact hinfo, ?_, ?_, ?_, ?_, ?_, ?_, ?_, ?_, ?_, ?_⟩
  · intro p hp
    rw [hl]
    rcases List.mem_append.mp hp with hp | hp
    · exact h.bound p hp
    · rw [List.mem_singleton.mp hp, hn]
      simp
  · refine List.pairwise_append.mpr ⟨h.mono, List.pairwise_singleton _ _, ?_⟩
    intro p hp q hq
    rw [List.mem_singleton.mp hq]
    have := h.bound p hp
    simp only
    omega
  · refine List.pairwise_append.mpr ⟨h.sep, List.pairwise_singleton _ _, ?_⟩
    intro p hp q hq he
    rw [List.mem_singleton.mp hq] at he ⊢
    have he' : p.1 = o.info.length - 1 := he
    exact hc p.2 (by rw [← he']; exact hp)
  · show o.sequential ++ [s.index] = (o.trace ++ [(o.info.length - 1, s)]).map _
    rw [h.seq]; simp
  · show setLast o.parallel _ = (setLast o.info _).map _
    rw [map_setLast (g := fun b => if s.single then (some s.index, b.2) else (b.1, b.2 ++ [s.index])), h.par]
    intro x
    cases s.single <;> simp
  · show (o.sequentialRunIf ++ [_]).map (resolve (o.write s c).runIfs) = (o.trace ++ [(o.info.length - 1, s)]).map _
    rw [List.map_append, List.map_append, ← h.seqIf]
    congr 1
    · exact List.map_congr_left fun i hi => hres i (h.seqVal i hi)
    · simp only [List.map_cons, List.map_nil]
      rw [hri.2]
  · show (setLast o.parallelRunIf _).map
        (fun b => (resolve (o.write s c).runIfs b.1, b.2.map (resolve (o.write s c).runIfs))) = (setLast o.info _).map _
    have g : Option (Cond W ε) × List (Option (Cond W ε)) → Option (Cond W ε) × List (Option (Cond W ε)) :=
      fun b => if s.single then (s.runIf, b.2) else (b.1, b.2 ++ [s.runIf])
    rw [map_setLast (g := fun b => if s.single then (s.runIf, b.2) else (b.1, b.2 ++ [s.runIf])),
      map_setLast (g := fun b => if s.single then (s.runIf, b.2) else (b.1, b.2 ++ [s.runIf]))]
    · congr 1
      rw [← h.parIf]
      apply List.map_congr_left
      intro b hb
      rw [hres b.1 (h.parVal1 b hb)]
      congr 1
      exact List.map_congr_left fun i hi => hres i (h.parVal2 b hb i hi)
    · intro x
      cases s.single <;> simp
    · intro x
      have := hri.2
      cases hs : s.single
      · simp only [Bool.false_eq_true, if_false, List.map_append, List.map_cons, List.map_nil]
        rw [this]
      · simp only [if_true]
        rw [this]
  · intro i hi
    rcases List.mem_append.mp hi with hi | hi
    · exact hval i (h.seqVal i hi)
    · rw [List.mem_singleton.mp hi]; exact hri.1
  · intro b hb
    rcases setLast_mem hb with hb | ⟨x, hx, rfl⟩
    · exact hval _ (h.parVal1 b hb)
    · cases s.single
      · exact hval _ (h.parVal1 x hx)
      · exact hri.1
  · intro b hb i hi
    rcases setLast_mem hb with hb | ⟨x, hx, rfl⟩
    · exact hval _ (h.parVal2 b hb i hi)
    · cases hs : s.single
      · simp only [hs, Bool.false_eq_true, if_false] at hi
        rcases List.mem_append.mp hi with hi | hi
        · exact hval _ (h.parVal2 x hx i hi)
        · rw [List.mem_singleton.mp hi]; exact hri.1
      · simp only [hs, if_true] at hi
        exact hval _ (h.parVal2 x hx i hi)

/-- Fields `DInv` does not look at. -/
theorem DInv.congr {o o' : Order W ε} (h : DInv o) (h1 : o'.info = o.info) (h2 : o'.trace = o.trace)
    (h3 : o'.sequential = o.sequential) (h4 : o'.parallel = o.parallel)
    (h5 : o'.sequentialRunIf = o.sequentialRunIf) (h6 : o'.parallelRunIf = o.parallelRunIf)
    (h7 : o'.runIfs = o.runIfs) : DInv o' := by
  refine ⟨?_, ?_, ?_, ?_, ?_, ?_, ?_, ?_, ?_, ?_, ?_, ?_⟩
  · rw [h1]; exact h.pos
  · rw [h1, h2]; exact h.info
  · rw [h1, h2]; exact h.bound
  · rw [h2]; exact h.mono
  · rw [h2]; exact h.sep
  · rw [h2, h3]; exact h.seq
  · rw [h1, h4]; exact h.par
  · rw [h2, h5, h7]; exact h.seqIf
  · rw [h1, h6, h7]; exact h.parIf
  · rw [h5, h7]; exact h.seqVal
  · rw [h6, h7]; exact h.parVal1
  · rw [h6, h7]; exact h.parVal2

theorem DInv.place {o : Order W ε} (h : DInv o) (s : Sys W ε) : DInv (o.place s) := by
  have h1 := h.openBatch s
  have h2 := h1.1.write s (o.conflictOf s) h1.2
  exact h2.congr rfl rfl rfl rfl rfl rfl rfl

theorem DInv.init (ss : List (Sys W ε)) : DInv (Order.init ss) := by
  refine ⟨Nat.one_pos, ?_, ?_, .nil, .nil, rfl, rfl, rfl, rfl, ?_, ?_, ?_⟩
  · show [(none, [])] = (List.range 1).map (batchOf [])
    rfl
  · intro p hp; cases hp
  · intro i hi; cases hi
  · intro b hb
    have : b = (none, []) := List.mem_singleton.mp hb
    subst this
    intro k hk; cases hk
  · intro b hb i hi
    have : b = (none, []) := List.mem_singleton.mp hb
    subst this
    cases hi

end Verif.Sched
