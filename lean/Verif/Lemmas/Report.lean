import Verif.Lemmas.Schedule

/-! # What `order_systems` writes in the information it returns -/
namespace Verif.Sched

variable {W ε : Type}

/-- Two lists of the same length, related element by element. -/
inductive All2 {α β : Type} (R : α → β → Prop) : List α → List β → Prop
  | nil : All2 R [] []
  | cons {a b l m} : R a b → All2 R l m → All2 R (a :: l) (b :: m)

theorem All2.mono {α β : Type} {R S : α → β → Prop} (h : ∀ a b, R a b → S a b) {l : List α} {m : List β}
    (hl : All2 R l m) : All2 S l m := by
  induction hl with
  | nil => exact .nil
  | cons h1 _ ih => exact .cons (h _ _ h1) ih

theorem All2.snoc {α β : Type} {R : α → β → Prop} {l : List α} {m : List β} (hl : All2 R l m) {a : α} {b : β}
    (h : R a b) : All2 R (l ++ [a]) (m ++ [b]) := by
  induction hl with
  | nil => exact .cons h .nil
  | cons h1 _ ih => exact .cons h1 ih

theorem All2.left {α β : Type} {R : α → β → Prop} {l : List α} {m : List β} (hl : All2 R l m) {a : α} (ha : a ∈ l) :
    ∃ b ∈ m, R a b := by
  induction hl with
  | nil => cases ha
  | cons h1 _ ih =>
    cases ha with
    | head => exact ⟨_, List.mem_cons_self, h1⟩
    | tail _ ha =>
      obtain ⟨b, hb, hr⟩ := ih ha
      exact ⟨b, List.mem_cons_of_mem _ hb, hr⟩

theorem All2.right {α β : Type} {R : α → β → Prop} {l : List α} {m : List β} (hl : All2 R l m) {b : β} (hb : b ∈ m) :
    ∃ a ∈ l, R a b := by
  induction hl with
  | nil => cases hb
  | cons h1 _ ih =>
    cases hb with
    | head => exact ⟨_, List.mem_cons_self, h1⟩
    | tail _ hb =>
      obtain ⟨a, ha, hr⟩ := ih hb
      exact ⟨a, List.mem_cons_of_mem _ ha, hr⟩

theorem All2.append {α β : Type} {R : α → β → Prop} {l l' : List α} {m m' : List β} (hl : All2 R l m)
    (hl' : All2 R l' m') : All2 R (l ++ l') (m ++ m') := by
  induction hl with
  | nil => exact hl'
  | cons h1 _ ih => exact .cons h1 ih

theorem All2.length {α β : Type} {R : α → β → Prop} {l : List α} {m : List β} (hl : All2 R l m) :
    l.length = m.length := by
  induction hl with
  | nil => rfl
  | cons _ _ ih => rw [List.length_cons, List.length_cons, ih]

theorem All2.get {α β : Type} {R : α → β → Prop} {l : List α} {m : List β} (hl : All2 R l m) {i : Nat} {a : α} {b : β}
    (ha : l[i]? = some a) (hb : m[i]? = some b) : R a b := by
  induction hl generalizing i with
  | nil => cases ha
  | cons h1 _ ih =>
    cases i with
    | zero => cases ha; cases hb; exact h1
    | succ i => exact ih (i := i) ha hb

/-! ## `check_conflict` -/

theorem conflictInfoT_isSome (o : Nat) (a b : TypeInfo) : (conflictInfoT o a b).isSome = conflictT a b := by
  unfold conflictInfoT conflictT
  cases !a.threadSafe && !b.threadSafe with
  | true => simp
  | false =>
    cases h : ((decide (a.storage = b.storage) && (a.exclusive || b.exclusive))
      || decide (a.storage = allStorages) || decide (b.storage = allStorages)) with
    | true => simp [h]
    | false => simp [h]

theorem conflictInfo_some {a b : List TypeInfo} {o : Nat} {c : Conflict} (h : conflictInfo a o b = some c) :
    ∃ x ∈ a, ∃ y ∈ b, conflictInfoT o x y = some c := by
  obtain ⟨x, hx, h⟩ := List.exists_of_findSome?_eq_some h
  obtain ⟨y, hy, h⟩ := List.exists_of_findSome?_eq_some h
  exact ⟨x, hx, y, hy, h⟩

theorem conflictInfo_isSome (a b : List TypeInfo) (o : Nat) : (conflictInfo a o b).isSome = conflict a b := by
  rw [Bool.eq_iff_iff, conflict_iff]
  constructor
  · intro h
    obtain ⟨c, hc⟩ := Option.isSome_iff_exists.mp h
    obtain ⟨x, hx, y, hy, h⟩ := conflictInfo_some hc
    refine ⟨x, hx, y, hy, ?_⟩
    rw [← conflictInfoT_isSome o, h]; rfl
  · rintro ⟨x, hx, y, hy, h⟩
    rw [← conflictInfoT_isSome o] at h
    unfold conflictInfo
    rw [List.findSome?_isSome_iff]
    refine ⟨x, hx, ?_⟩
    rw [List.findSome?_isSome_iff]
    exact ⟨y, hy, h⟩

/-! ## The invariant -/

/-- Where the conflict written for `s`, placed in batch `b`, comes from: the implicit ordering, or a system of the batch
before. -/
def Source (t : List (Nat × Sys W ε)) (b : Nat) (s : Sys W ε) (c : Option Conflict) : Prop :=
  c = s.notes.conflict ∨
    ∃ q ∈ t, q.1 + 1 = b ∧ c = conflictInfo s.borrows q.2.index q.2.borrows ∧ c ≠ none

def Slot (t : List (Nat × Sys W ε)) (b : Nat) (i : SystemInfo) (s : Sys W ε) : Prop :=
  i = s.info i.conflict ∧ Source t b s i.conflict

/-- A batch of the report describes a batch of systems. -/
def Tells (t : List (Nat × Sys W ε)) (b : Nat) (r : BatchInfo) (x : Option (Sys W ε) × List (Sys W ε)) : Prop :=
  All2 (Slot t b) r.1.toList x.1.toList ∧ All2 (Slot t b) r.2 x.2

structure RInv (o : Order W ε) : Prop where
  len : o.report.length = o.info.length
  tells : ∀ (b : Nat) r x, o.report[b]? = some r → o.info[b]? = some x → Tells o.trace b r x

theorem Source.mono {t t' : List (Nat × Sys W ε)} (h : ∀ p ∈ t, p ∈ t') {b : Nat} {s : Sys W ε} {c : Option Conflict}
    (hs : Source t b s c) : Source t' b s c := by
  rcases hs with h1 | ⟨q, hq, h2⟩
  · exact .inl h1
  · exact .inr ⟨q, h q hq, h2⟩

theorem Tells.mono {t t' : List (Nat × Sys W ε)} (h : ∀ p ∈ t, p ∈ t') {b : Nat} {r : BatchInfo}
    {x : Option (Sys W ε) × List (Sys W ε)} (ht : Tells t b r x) : Tells t' b r x :=
  ⟨ht.1.mono fun _ _ hs => ⟨hs.1, hs.2.mono h⟩, ht.2.mono fun _ _ hs => ⟨hs.1, hs.2.mono h⟩⟩

theorem RInv.congr {o o' : Order W ε} (h : RInv o) (h1 : o'.report = o.report) (h2 : o'.info = o.info)
    (h3 : o'.trace = o.trace) : RInv o' := by
  refine ⟨by rw [h1, h2]; exact h.len, ?_⟩
  intro b r x hr hx
  rw [h1] at hr; rw [h2] at hx; rw [h3]
  exact h.tells b r x hr hx

theorem RInv.newBatch {o : Order W ε} (h : RInv o) : RInv o.newBatch := by
  refine ⟨?_, ?_⟩
  · show (o.report ++ [(none, [])]).length = (o.info ++ [(none, [])]).length
    rw [List.length_append, List.length_append, h.len]; rfl
  · intro b r x hr hx
    have hr : (o.report ++ [(none, [])])[b]? = some r := hr
    have hx : (o.info ++ [(none, [])])[b]? = some x := hx
    show Tells o.trace b r x
    by_cases hb : b < o.report.length
    · rw [List.getElem?_append_left hb] at hr
      rw [List.getElem?_append_left (by rw [← h.len]; exact hb)] at hx
      exact h.tells b r x hr hx
    · rw [List.getElem?_append_right (by omega)] at hr
      rw [List.getElem?_append_right (by rw [← h.len]; omega), ← h.len] at hx
      cases hk : b - o.report.length with
      | zero =>
        rw [hk] at hr hx
        cases hr; cases hx
        exact ⟨.nil, .nil⟩
      | succ k => rw [hk] at hr; simp at hr

theorem setLast_get {α : Type} (l : List α) (f : α → α) (i : Nat) {y : α} (h : (setLast l f)[i]? = some y) :
    (i + 1 < l.length ∧ l[i]? = some y) ∨ (i + 1 = l.length ∧ ∃ x, l[i]? = some x ∧ y = f x) := by
  rcases List.eq_nil_or_concat l with rfl | ⟨t, a, rfl⟩
  · cases h
  · rw [List.concat_eq_append] at h ⊢
    rw [setLast_snoc] at h
    by_cases hi : i < t.length
    · rw [List.getElem?_append_left hi] at h
      left
      rw [List.getElem?_append_left hi, List.length_append]
      exact ⟨by simp; omega, h⟩
    · rw [List.getElem?_append_right (by omega)] at h
      cases hk : i - t.length with
      | zero =>
        rw [hk] at h
        right
        refine ⟨by simp; omega, a, ?_, by simpa using h.symm⟩
        rw [List.getElem?_append_right (by omega), hk]; rfl
      | succ k => rw [hk] at h; simp at h

theorem getLast?_get {α : Type} {l : List α} {a : α} (h : l.getLast? = some a) : l[l.length - 1]? = some a := by
  rw [List.getLast?_eq_getElem?] at h
  exact h

theorem RInv.write {o : Order W ε} (h : RInv o) (s : Sys W ε) (c : Option Conflict)
    (hpos : 0 < o.info.length)
    (hc : Source o.trace (o.info.length - 1) s c) : RInv (o.write s c) := by
  have hsub : ∀ p ∈ o.trace, p ∈ o.trace ++ [(o.info.length - 1, s)] := fun p hp => List.mem_append_left _ hp
  refine ⟨?_, ?_⟩
  · show (setLast o.report _).length = (setLast o.info _).length
    rw [length_setLast, length_setLast, h.len]
  · intro b r x hr hx
    have hr : (setLast o.report fun b =>
      if s.single then (some (s.info c), b.2) else (b.1, b.2 ++ [s.info c]))[b]? = some r := hr
    have hx : (setLast o.info fun b => if s.single then (some s, b.2) else (b.1, b.2 ++ [s]))[b]? = some x := hx
    show Tells (o.trace ++ [(o.info.length - 1, s)]) b r x
    rcases setLast_get _ _ _ hr with ⟨hb, hr⟩ | ⟨hb, r', hr2, rfl⟩
    · rcases setLast_get _ _ _ hx with ⟨_, hx⟩ | ⟨hb', _⟩
      · exact (h.tells b r x hr hx).mono hsub
      · rw [h.len] at hb; omega
    · rcases setLast_get _ _ _ hx with ⟨hb', _⟩ | ⟨hb', x', hx2, rfl⟩
      · rw [h.len] at hb; omega
      · have ht := (h.tells b r' x' hr2 hx2).mono hsub
        have hbl : b = o.info.length - 1 := by omega
        have hslot : Slot (o.trace ++ [(o.info.length - 1, s)]) b (s.info c) s := by
          refine ⟨rfl, ?_⟩
          rw [hbl]
          exact hc.mono hsub
        cases hs : s.single with
        | true => exact ⟨.cons hslot .nil, ht.2⟩
        | false => exact ⟨ht.1, ht.2.snoc hslot⟩

theorem batchConflictInfo_some {r : BatchInfo} {s : Sys W ε} {c : Conflict} (h : batchConflictInfo r s = some c) :
    ∃ i ∈ r.1.toList ++ r.2, conflictInfo s.borrows i.uniqueId i.borrow = some c := by
  unfold batchConflictInfo at h
  split at h
  · cases h
    next c' he =>
    cases hr : r.1 with
    | none => rw [hr] at he; cases he
    | some i =>
      rw [hr] at he
      exact ⟨i, by simp, he⟩
  · obtain ⟨i, hi, h⟩ := List.exists_of_findSome?_eq_some h
    exact ⟨i, List.mem_append_right _ hi, h⟩

theorem batchConflictInfo_none {r : BatchInfo} {s : Sys W ε} (h : batchConflictInfo r s = none) :
    ∀ i ∈ r.1.toList ++ r.2, conflictInfo s.borrows i.uniqueId i.borrow = none := by
  unfold batchConflictInfo at h
  split at h
  · cases h
  · next he =>
    intro i hi
    rcases List.mem_append.mp hi with hi | hi
    · cases hr : r.1 with
      | none => rw [hr] at hi; cases hi
      | some j =>
        rw [hr] at hi he
        simp only [Option.toList_some, List.mem_singleton] at hi
        subst hi
        exact he
    · rw [List.findSome?_eq_none_iff] at h
      exact h i hi

/-- The batch is refused for the same systems as in the report. -/
theorem Tells.conflict {t : List (Nat × Sys W ε)} {b : Nat} {r : BatchInfo} {x : Option (Sys W ε) × List (Sys W ε)}
    (h : Tells t b r x) (s : Sys W ε) : batchConflict x s = (batchConflictInfo r s).isSome := by
  have hall : All2 (Slot t b) (r.1.toList ++ r.2) (x.1.toList ++ x.2) := h.1.append h.2
  have key : batchConflict x s = true ↔ ∃ y ∈ x.1.toList ++ x.2, Sched.conflict s.borrows y.borrows = true := by
    unfold batchConflict
    cases hx : x.1 with
    | none => simp
    | some y => simp
  rw [Bool.eq_iff_iff, key]
  constructor
  · rintro ⟨y, hy, hc⟩
    cases hb : batchConflictInfo r s with
    | some c => rfl
    | none =>
      obtain ⟨i, hi, hsl, _⟩ := hall.right hy
      have := batchConflictInfo_none hb i hi
      rw [hsl] at this
      rw [← conflictInfo_isSome _ _ y.index] at hc
      have e : conflictInfo s.borrows y.index y.borrows = none := this
      rw [e] at hc
      cases hc
  · intro hb
    obtain ⟨c, hc⟩ := Option.isSome_iff_exists.mp hb
    obtain ⟨i, hi, hic⟩ := batchConflictInfo_some hc
    obtain ⟨y, hy, hsl, _⟩ := hall.left hi
    refine ⟨y, hy, ?_⟩
    rw [← conflictInfo_isSome _ _ y.index]
    rw [hsl] at hic
    have e : conflictInfo s.borrows y.index y.borrows = some c := hic
    rw [e]; rfl

theorem RInv.place {o : Order W ε} (hd : DInv o) (h : RInv o) (s : Sys W ε) : RInv (o.place s) := by
  obtain ⟨x, hx⟩ : ∃ x, o.info.getLast? = some x := by
    cases hl : o.info.getLast? with
    | some x => exact ⟨x, rfl⟩
    | none =>
      have := hd.pos
      rw [List.getLast?_eq_none_iff.mp hl] at this
      cases this
  obtain ⟨r, hr⟩ : ∃ r, o.report.getLast? = some r := by
    cases hl : o.report.getLast? with
    | some x => exact ⟨x, rfl⟩
    | none =>
      have := hd.pos
      rw [← h.len, List.getLast?_eq_none_iff.mp hl] at this
      cases this
  have hr' := getLast?_get hr
  have hx' := getLast?_get hx
  rw [h.len] at hr'
  have ht := h.tells _ r x hr' hx'
  have hcf := ht.conflict s
  -- a system of the last batch of the report is in the trace
  have hin : ∀ y ∈ x.1.toList ++ x.2, (o.info.length - 1, y) ∈ o.trace := by
    have hi := hd.info
    have : o.info[o.info.length - 1]? = some (batchOf o.trace (o.info.length - 1)) := by
      rw [hi, List.getElem?_map, List.getElem?_range (by rw [← hi]; have := hd.pos; omega), ← hi]
      rfl
    rw [hx'] at this
    cases this
    intro y hy
    rcases List.mem_append.mp hy with hy | hy
    · rw [Option.mem_toList] at hy
      exact ((batch_single o.trace hd.sep _ y).mp hy).1
    · exact ((mem_batch o.trace _ y).mp hy).1
  have hbase : RInv ((o.openBatch s).write s (o.conflictOf s)) := by
    cases hb : batchConflict x s with
    | true =>
      have hob : o.openBatch s = o.newBatch := by
        unfold Order.openBatch
        rw [hx]
        simp only
        rw [hb]; rfl
      rw [hob]
      rw [hb] at hcf
      obtain ⟨c, hc⟩ := Option.isSome_iff_exists.mp hcf.symm
      have hco : o.conflictOf s = some c := by
        unfold Order.conflictOf
        rw [hr]
        simp only [Option.bind_some]
        rw [hc]
      rw [hco]
      have hlen : o.newBatch.info.length - 1 = o.info.length := by
        show (o.info ++ [(none, [])]).length - 1 = _
        rw [List.length_append]; rfl
      refine h.newBatch.write s _ ?_ ?_
      · show 0 < (o.info ++ [(none, [])]).length
        rw [List.length_append]; exact Nat.succ_pos _
      · rw [hlen]
        obtain ⟨i, hi, hic⟩ := batchConflictInfo_some hc
        obtain ⟨y, hy, hsl, _⟩ := (ht.1.append ht.2).left hi
        refine .inr ⟨_, hin y hy, ?_, ?_, by simp⟩
        · have := hd.pos
          show o.info.length - 1 + 1 = _
          omega
        · rw [hsl] at hic
          exact hic.symm
    | false =>
      have hob : o.openBatch s = o := by
        unfold Order.openBatch
        rw [hx]
        simp only
        rw [hb]; rfl
      rw [hob]
      rw [hb] at hcf
      have hc : batchConflictInfo r s = none := by
        cases he : batchConflictInfo r s with
        | none => rfl
        | some c => rw [he] at hcf; cases hcf
      have hco : o.conflictOf s = s.notes.conflict := by
        unfold Order.conflictOf
        rw [hr]
        simp only [Option.bind_some]
        rw [hc]
      rw [hco]
      exact h.write s _ hd.pos (.inl rfl)
  exact hbase.congr rfl rfl rfl

theorem RInv.init (ss : List (Sys W ε)) : RInv (Order.init ss) := by
  refine ⟨rfl, ?_⟩
  intro b r x hr hx
  cases b with
  | zero => cases hr; cases hx; exact ⟨.nil, .nil⟩
  | succ b => cases b <;> cases hr

theorem RInv.none : RInv (Order.none : Order W ε) := ⟨rfl, fun b r x hr _ => by cases b <;> cases hr⟩

theorem drain_report (fuel : Nat) : ∀ (o o' : Order W ε), DInv o → RInv o → Order.drain fuel o = .ok o' →
    DInv o' ∧ RInv o' := by
  induction fuel with
  | zero =>
    intro o o' hd hr h
    unfold Order.drain at h
    split at h
    · cases h; exact ⟨hd, hr⟩
    · cases h
  | succ f ih =>
    intro o o' hd hr h
    unfold Order.drain at h
    split at h
    · cases h; exact ⟨hd, hr⟩
    · next s q _ =>
      have hd' : DInv { o with queue := q } := hd.congr rfl rfl rfl rfl rfl rfl rfl
      have hr' : RInv { o with queue := q } := hr.congr rfl rfl rfl
      exact ih _ _ (hd'.place s) (hr'.place hd' s) h

theorem loop_report (fuel : Nat) : ∀ (o o' : Order W ε), DInv o → RInv o → Order.loop fuel o = .ok o' →
    DInv o' ∧ RInv o' := by
  induction fuel with
  | zero => intro o o' _ _ h; cases h
  | succ f ih =>
    intro o o' hd hr h
    unfold Order.loop at h
    cases hdr : Order.drain (o.queue.length + o.rest.length) o with
    | error e => rw [hdr] at h; cases h
    | ok o1 =>
      rw [hdr] at h
      obtain ⟨hd1, hr1⟩ := drain_report _ _ _ hd hr hdr
      have hd2 : DInv o1.release := hd1.congr rfl rfl rfl rfl rfl rfl rfl
      have hr2 : RInv o1.release := hr1.congr rfl rfl rfl
      simp only [bind, Except.bind] at h
      split at h
      · cases h; exact ⟨hd2, hr2⟩
      · exact ih { o1.release.newBatch with toDelete := [] } o' (hd2.newBatch.congr rfl rfl rfl rfl rfl rfl rfl) (hr2.newBatch.congr rfl rfl rfl) h

theorem order_report {ss : List (Sys W ε)} {o : Order W ε} (h : orderSystems ss = .ok o) : RInv o := by
  unfold orderSystems at h
  split at h
  · cases h; exact .none
  · cases hl : Order.loop (ss.length + 1) (Order.init (ss.map Sys.noteAfter)) with
    | error e => rw [hl] at h; cases h
    | ok o1 =>
      rw [hl] at h
      simp only [bind, Except.bind] at h
      split at h
      · cases h
        exact (loop_report _ _ _ (.init _) (.init _) hl).2
      · cases h

end Verif.Sched
