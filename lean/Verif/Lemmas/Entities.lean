import Verif.Model.Entities

/-! The free-list invariant of `Entities` and its preservation by every operation. -/
namespace Verif.Entities

/-- `Q` is a chain of slots, each linking to the next one, the last one linking to `t`. -/
def Seg (d : List EId) : List Nat → Nat → Prop
  | [], _ => True
  | a :: Q, t => (∃ g, d[a]? = some ⟨Q.headD t, g⟩) ∧ Seg d Q t

theorem Seg.append {d : List EId} {P Q : List Nat} {t : Nat} :
    Seg d (P ++ Q) t ↔ Seg d P (Q.headD t) ∧ Seg d Q t := by
  induction P with
  | nil => simp [Seg]
  | cons a P ih =>
    simp only [List.cons_append, Seg, ih, and_assoc]
    have : (P ++ Q).headD t = P.headD (Q.headD t) := by cases P <;> simp
    rw [this]

theorem Seg.frame {d d' : List EId} {Q : List Nat} {t : Nat}
    (h : ∀ q ∈ Q, d'[q]? = d[q]?) (hs : Seg d Q t) : Seg d' Q t := by
  induction Q with
  | nil => trivial
  | cons a Q ih =>
    refine ⟨?_, ih (fun q hq => h q (List.mem_cons_of_mem _ hq)) hs.2⟩
    rw [h a List.mem_cons_self]; exact hs.1

theorem Seg.mem {d : List EId} {Q : List Nat} {t : Nat} (hs : Seg d Q t) (hn : Q.Nodup)
    (ht : t ∉ Q) {q : Nat} (hq : q ∈ Q) : ∃ e, d[q]? = some e ∧ e.idx ≠ q := by
  induction Q with
  | nil => cases hq
  | cons a Q ih =>
    rw [List.nodup_cons] at hn
    rcases List.mem_cons.1 hq with rfl | hq'
    · obtain ⟨g, hg⟩ := hs.1
      refine ⟨_, hg, ?_⟩
      intro h
      simp only at h
      cases Q with
      | nil => simp only [List.headD] at h; exact ht (h ▸ List.mem_cons_self)
      | cons b Q => simp only [List.headD] at h; exact hn.1 (h ▸ List.mem_cons_self)
    · exact ih hs.2 hn.2 (fun h => ht (List.mem_cons_of_mem _ h)) hq'

/-- The `(new, old)` pair of a free list. -/
def listOf (Q : List Nat) : Option (Nat × Nat) :=
  match Q.getLast?, Q.head? with
  | some n, some o => some (n, o)
  | _, _ => none

@[simp] theorem listOf_nil : listOf [] = none := rfl
@[simp] theorem listOf_singleton (a : Nat) : listOf [a] = some (a, a) := rfl
theorem listOf_cons_snoc (a : Nat) (Q : List Nat) (n : Nat) :
    listOf (a :: (Q ++ [n])) = some (n, a) := by
  unfold listOf
  rw [← List.cons_append, List.getLast?_append]; simp

theorem listOf_eq_some {Q : List Nat} {n o : Nat} (h : listOf Q = some (n, o)) :
    (Q = [o] ∧ n = o) ∨ ∃ Q', Q = o :: (Q' ++ [n]) := by
  cases Q with
  | nil => simp at h
  | cons a Q =>
    rcases List.eq_nil_or_concat Q with rfl | ⟨Q', b, rfl⟩
    · simp at h; left; simp [h.1.symm, h.2]
    · rw [List.concat_eq_append, listOf_cons_snoc] at h
      right; simp only [Option.some.injEq, Prod.mk.injEq] at h
      exact ⟨Q', by simp [h.1, h.2]⟩

theorem listOf_eq_none {Q : List Nat} (h : listOf Q = none) : Q = [] := by
  cases Q with
  | nil => rfl
  | cons a Q =>
    rcases List.eq_nil_or_concat Q with rfl | ⟨Q', b, rfl⟩
    · simp at h
    · rw [List.concat_eq_append, listOf_cons_snoc] at h; cases h

/-- The invariant: `Q` lists the recyclable slots, oldest first. -/
structure Inv (s : Entities) (Q : List Nat) : Prop where
  list : s.list = listOf Q
  nodup : Q.Nodup
  chain : Seg s.data Q EId.maxIndex
  own : ∀ (i : Nat) (e : EId), s.data[i]? = some e → i ∉ Q → e.idx = i
  cap : s.data.length < EId.maxIndex
  gens : ∀ (i : Nat) (e : EId), s.data[i]? = some e → e.gen < 65536

theorem lt_of_getElem?_some {α} {l : List α} {i : Nat} {a : α} (h : l[i]? = some a) :
    i < l.length := by
  rcases Nat.lt_or_ge i l.length with h' | h'
  · exact h'
  · rw [List.getElem?_eq_none h'] at h; cases h

namespace Inv
variable {s : Entities} {Q : List Nat}

theorem not_mem_max (h : Inv s Q) : EId.maxIndex ∉ Q := by
  intro hm
  have hc := h.chain
  have : ∀ (Q : List Nat), Seg s.data Q EId.maxIndex → ∀ q ∈ Q, q < s.data.length := by
    intro Q; induction Q with
    | nil => intro _ q hq; cases hq
    | cons a Q ih =>
      intro hs q hq
      rcases List.mem_cons.1 hq with rfl | hq
      · obtain ⟨g, hg⟩ := hs.1; exact lt_of_getElem?_some hg
      · exact ih hs.2 q hq
  have := this Q hc _ hm
  have := h.cap
  omega

theorem mem (h : Inv s Q) {q : Nat} (hq : q ∈ Q) : ∃ e, s.data[q]? = some e ∧ e.idx ≠ q :=
  h.chain.mem h.nodup h.not_mem_max hq

theorem mem_lt (h : Inv s Q) {q : Nat} (hq : q ∈ Q) : q < s.data.length := by
  obtain ⟨e, he, _⟩ := h.mem hq; exact lt_of_getElem?_some he

theorem isAlive_iff (s : Entities) (e : EId) : s.isAlive e = true ↔ s.data[e.idx]? = some e := by
  unfold isAlive
  split
  · rename_i e' he'; rw [he']; simp; exact ⟨fun h => h.symm, fun h => h.symm⟩
  · rename_i he'; rw [he']; simp

/-- An alive id is in a slot that is not recyclable. -/
theorem alive_not_mem (h : Inv s Q) {e : EId} (ha : s.isAlive e = true) : e.idx ∉ Q := by
  rw [isAlive_iff] at ha
  intro hq
  obtain ⟨e', he', hne⟩ := h.mem hq
  rw [ha] at he'; cases he'; exact hne rfl

/-- A slot is recyclable iff the id stored in it is not alive. -/
theorem mem_iff_dead (h : Inv s Q) {i : Nat} {o : EId} (ho : s.data[i]? = some o) :
    i ∈ Q ↔ s.isAlive o = false := by
  constructor
  · intro hq
    rw [← Bool.not_eq_true]
    intro ha
    have ha' := (isAlive_iff s o).1 ha
    have hi := h.own _ _ ha' (h.alive_not_mem ha)
    -- data[o.idx] = o ; data[i] = o with i in Q, so its link o.idx is in Q or maxIndex
    have : ∀ (Q : List Nat), Seg s.data Q EId.maxIndex → i ∈ Q →
        o.idx ∈ Q ∨ o.idx = EId.maxIndex := by
      intro Q; induction Q with
      | nil => intro _ h; cases h
      | cons a Q ih =>
        intro hs hm
        rcases List.mem_cons.1 hm with rfl | hm
        · obtain ⟨g, hg⟩ := hs.1
          rw [ho] at hg
          cases hg
          cases Q with
          | nil => right; rfl
          | cons b Q => left; simp [List.headD]
        · rcases ih hs.2 hm with h' | h'
          · left; exact List.mem_cons_of_mem _ h'
          · right; exact h'
    rcases this Q h.chain hq with h' | h'
    · exact h.alive_not_mem ha h'
    · have := lt_of_getElem?_some ha'
      have := h.cap
      omega
  · intro ha
    rcases Classical.em (i ∈ Q) with hq | hq
    · exact hq
    · exfalso
      have := h.own i o ho hq
      subst this
      rw [← Bool.not_eq_true, isAlive_iff] at ha
      exact ha ho

end Inv

theorem setIndex_ok {e : EId} {v : Nat} (hv : v < EId.INDEX_MASK) :
    e.setIndex v = .ok { e with idx := v } := by
  unfold EId.setIndex; rw [if_pos hv]

theorem setIdxU_ok {d : List EId} {i v : Nat} {e : EId} (h : d[i]? = some e)
    (hv : v < EId.INDEX_MASK) : setIdxU d i v = .ok (d.set i ⟨v, e.gen⟩) := by
  unfold setIdxU getU
  rw [h]; simp only [bind, Except.bind, setIndex_ok hv]

theorem setIdxC_ok {d : List EId} {i v : Nat} {e : EId} (h : d[i]? = some e)
    (hv : v < EId.INDEX_MASK) : setIdxC d i v = .ok (d.set i ⟨v, e.gen⟩) := by
  unfold setIdxC getC
  rw [h]; simp only [bind, Except.bind, setIndex_ok hv]

theorem maxIndex_lt : EId.maxIndex < EId.INDEX_MASK := by decide
theorem new_ok {i : Nat} (h : i < EId.maxIndex) : EId.new i = .ok ⟨i, 0⟩ := by
  unfold EId.new; rw [if_pos (Nat.lt_trans h maxIndex_lt)]

/-! ### generate -/

/-- What `generate` does under the invariant, when the free list is empty. -/
theorem generate_nil {s : Entities} (h : Inv s []) :
    generate s = .ok (⟨s.data.length, 0⟩, { s with data := s.data ++ [⟨s.data.length, 0⟩] }) := by
  have hl := h.list
  simp only [listOf_nil] at hl
  unfold generate
  rw [hl]; simp only [new_ok h.cap]; rfl

/-- What `generate` does under the invariant, when there is a slot to recycle. -/
theorem generate_cons {s : Entities} {a : Nat} {Q : List Nat} (h : Inv s (a :: Q)) :
    ∃ o, s.data[a]? = some o ∧
      generate s = .ok (⟨a, o.gen⟩,
        { s with data := s.data.set a ⟨a, o.gen⟩, list := listOf Q }) := by
  obtain ⟨o, ho, _⟩ := h.mem (List.mem_cons_self)
  refine ⟨o, ho, ?_⟩
  have hl := h.list
  have ha : a < s.data.length := lt_of_getElem?_some ho
  have hcap := h.cap
  have hmask : a < EId.INDEX_MASK := by have := maxIndex_lt; omega
  unfold generate
  rcases List.eq_nil_or_concat Q with rfl | ⟨Q', n, rfl⟩
  · rw [listOf_singleton] at hl
    rw [hl]
    simp only [if_pos, bind, Except.bind, setIdxU_ok ho hmask, getU,
      List.getElem?_set_self ha, listOf_nil]
  · rw [List.concat_eq_append, listOf_cons_snoc] at hl
    rw [hl]
    have hne : n ≠ a := by
      have := h.nodup
      rw [List.nodup_cons] at this
      intro e; apply this.1; rw [e]; simp
    obtain ⟨g, hg⟩ := h.chain.1
    rw [ho] at hg; cases hg
    simp only [if_neg hne, bind, Except.bind, setIdxU_ok ho hmask, getU, ho,
      List.getElem?_set_self ha]
    congr 3
    rw [List.concat_eq_append]
    cases Q' with
    | nil => rfl
    | cons b Q' => rw [List.cons_append, listOf_cons_snoc]; rfl

theorem generate_nil_inv {s : Entities} (h : Inv s [])
    (hcap : s.data.length + 1 < EId.maxIndex) :
    Inv { s with data := s.data ++ [⟨s.data.length, 0⟩] } [] := by
  refine ⟨h.list, h.nodup, trivial, ?_, by simp; omega, ?_⟩
  · intro i e he _
    simp only [List.getElem?_append] at he
    split at he
    · exact h.own i e he (by simp)
    · rename_i hi
      rcases Nat.lt_or_ge (i - s.data.length) 1 with h1 | h1
      · have : i = s.data.length := by omega
        subst this; simp at he; rw [← he]
      · rw [List.getElem?_eq_none (by simpa using h1)] at he; cases he
  · intro i e he
    simp only [List.getElem?_append] at he
    split at he
    · exact h.gens i e he
    · rename_i hi
      rcases Nat.lt_or_ge (i - s.data.length) 1 with h1 | h1
      · have : i = s.data.length := by omega
        subst this; simp at he; rw [← he]; simp
      · rw [List.getElem?_eq_none (by simpa using h1)] at he; cases he

theorem generate_cons_inv {s : Entities} {a : Nat} {Q : List Nat} (h : Inv s (a :: Q)) {o : EId}
    (ho : s.data[a]? = some o) :
    Inv { s with data := s.data.set a ⟨a, o.gen⟩, list := listOf Q } Q := by
  have hn := h.nodup
  rw [List.nodup_cons] at hn
  have ha : a < s.data.length := lt_of_getElem?_some ho
  refine ⟨rfl, hn.2, ?_, ?_, by simpa using h.cap, ?_⟩
  · refine Seg.frame ?_ h.chain.2
    intro q hq
    have : a ≠ q := by rintro rfl; exact hn.1 hq
    simp [List.getElem?_set_ne this]
  · intro i e he hi
    by_cases hai : a = i
    · subst hai; simp [List.getElem?_set_self ha] at he; rw [← he]
    · simp [List.getElem?_set_ne hai] at he
      exact h.own i e he (by simp [hi, Ne.symm hai])
  · intro i e he
    by_cases hai : a = i
    · subst hai; simp [List.getElem?_set_self ha] at he; rw [← he]; exact h.gens a o ho
    · simp [List.getElem?_set_ne hai] at he
      exact h.gens i e he

/-! ### bulk_generate -/

theorem freshIds_ok (start : Nat) : ∀ n, start + n ≤ EId.maxIndex →
    freshIds start n = .ok ((List.range' start n).map (fun i => ⟨i, 0⟩)) := by
  intro n
  induction n generalizing start with
  | zero => intro _; rfl
  | succ n ih =>
    intro h
    unfold freshIds
    rw [new_ok (by omega), ih (start + 1) (by omega)]
    simp [bind, Except.bind, List.range'_succ]

/-- The ids pushed by `bulk_generate`. -/
def fresh (start n : Nat) : List EId := (List.range' start n).map (fun i => ⟨i, 0⟩)

@[simp] theorem fresh_length (start n : Nat) : (fresh start n).length = n := by simp [fresh]

theorem fresh_getElem? {start n i : Nat} : (fresh start n)[i]? =
    if i < n then some ⟨start + i, 0⟩ else none := by
  unfold fresh
  split
  · rename_i h; rw [List.getElem?_map, List.getElem?_range' (by simpa using h)]; simp
  · rename_i h; rw [List.getElem?_eq_none (by simp; omega)]

theorem bulkGenerate_ok {s : Entities} {n : Nat} (h : s.data.length + n ≤ EId.maxIndex) :
    bulkGenerate s n = .ok (fresh s.data.length n,
      { s with data := s.data ++ fresh s.data.length n }) := by
  unfold bulkGenerate
  rw [freshIds_ok _ _ h]; rfl

theorem append_fresh_getElem? {d : List EId} {n i : Nat} {e : EId} :
    (d ++ fresh d.length n)[i]? = some e ↔
      d[i]? = some e ∨ (d.length ≤ i ∧ i < d.length + n ∧ e = ⟨i, 0⟩) := by
  rw [List.getElem?_append]
  split
  · rename_i h; constructor
    · intro h'; exact .inl h'
    · rintro (h' | h')
      · exact h'
      · omega
  · rename_i h
    rw [fresh_getElem?, List.getElem?_eq_none (by omega)]
    constructor
    · intro h'
      split at h'
      · right; cases h'; refine ⟨by omega, by omega, by congr 1; omega⟩
      · cases h'
    · rintro (h' | ⟨h1, h2, rfl⟩)
      · cases h'
      · rw [if_pos (by omega)]; congr 2; omega

theorem bulkGenerate_inv {s : Entities} {Q : List Nat} (h : Inv s Q) {n : Nat}
    (hcap : s.data.length + n < EId.maxIndex) :
    Inv { s with data := s.data ++ fresh s.data.length n } Q := by
  refine ⟨h.list, h.nodup, ?_, ?_, by simpa using hcap, ?_⟩
  · refine Seg.frame ?_ h.chain
    intro q hq
    simp [List.getElem?_append, h.mem_lt hq]
  · intro i e he hi
    rcases append_fresh_getElem?.1 he with h' | ⟨_, _, rfl⟩
    · exact h.own i e h' hi
    · rfl
  · intro i e he
    rcases append_fresh_getElem?.1 he with h' | ⟨_, _, rfl⟩
    · exact h.gens i e h'
    · simp

/-! ### delete_unchecked -/

/-- The slots after deleting `e` with the free list `Q`: the last free slot links to `e`'s slot, which
gets the next generation and ends the list. -/
def deletedData (d : List EId) (Q : List Nat) (e : EId) : List EId :=
  let d1 := d.set e.idx ⟨EId.maxIndex, e.gen + 1⟩
  match Q.getLast? with
  | some n =>
    match d[n]? with
    | some x => d1.set n ⟨e.idx, x.gen⟩
    | none => d1
  | none => d1

theorem deleteUnchecked_dead {s : Entities} {e : EId} (h : s.isAlive e = false) :
    deleteUnchecked s e = .ok (false, s) := by
  unfold deleteUnchecked; rw [h]; simp

theorem deleteUnchecked_exhausted {s : Entities} {e : EId} (ha : s.isAlive e = true)
    (hg : 65533 ≤ e.gen) : deleteUnchecked s e = .ok (true, s.callHook e) := by
  have hd := (Inv.isAlive_iff s e).1 ha
  have hb : e.bumpGen = none := by
    unfold EId.bumpGen; rw [if_neg]; unfold EId.MAX_GEN; omega
  unfold deleteUnchecked getU
  rw [ha, hd]
  simp only [if_true, bind, Except.bind, hb]

theorem listOf_append_singleton (Q : List Nat) (i : Nat) :
    listOf (Q ++ [i]) = some (i, (Q ++ [i]).headD i) := by
  cases Q with
  | nil => rfl
  | cons a Q => rw [List.cons_append, listOf_cons_snoc]; rfl

theorem deleteUnchecked_alive {s : Entities} {Q : List Nat} (h : Inv s Q) {e : EId}
    (ha : s.isAlive e = true) (hg : e.gen < 65533) :
    deleteUnchecked s e = .ok (true,
      ({ s with data := deletedData s.data Q e, list := listOf (Q ++ [e.idx]) }).callHook e) := by
  have hd := (Inv.isAlive_iff s e).1 ha
  have hnm := h.alive_not_mem ha
  have hlt := lt_of_getElem?_some hd
  have hcap := h.cap
  have hmask := maxIndex_lt
  have hb : e.bumpGen = some ⟨e.idx, e.gen + 1⟩ := by
    unfold EId.bumpGen; rw [if_pos]; exact hg
  have hl := h.list
  rcases List.eq_nil_or_concat Q with rfl | ⟨Q', n, rfl⟩
  · rw [listOf_nil] at hl
    unfold deleteUnchecked getU
    rw [ha, hd, hl]
    simp only [if_true, bind, Except.bind, hb]
    rw [setIdxU_ok (List.getElem?_set_self hlt) hmask]
    simp [deletedData]
  · rw [List.concat_eq_append] at *
    have hn : n ∈ Q' ++ [n] := by simp
    obtain ⟨x, hx, _⟩ := h.mem hn
    have hne : e.idx ≠ n := by rintro rfl; exact hnm hn
    have hl' : listOf (Q' ++ [n]) = some (n, (Q' ++ [n]).headD n) := listOf_append_singleton Q' n
    rw [hl'] at hl
    unfold deleteUnchecked getU
    rw [ha, hd, hl]
    simp only [if_true, bind, Except.bind, hb]
    rw [setIdxU_ok (e := x) (by rw [List.getElem?_set_ne hne]; exact hx) (by omega)]
    simp only
    rw [setIdxU_ok (e := ⟨e.idx, e.gen + 1⟩)
      (by rw [List.getElem?_set_ne (Ne.symm hne)]; exact List.getElem?_set_self hlt) hmask]
    simp only [deletedData, List.getLast?_append, List.getLast?_singleton, Option.some_or, hx]
    rw [listOf_append_singleton (Q' ++ [n])]
    congr 4
    · rw [List.set_comm _ _ (Ne.symm hne), List.set_set]
    · cases Q' <;> rfl

/-- Reading a slot after a deletion. -/
theorem deletedData_getElem? {s : Entities} {Q : List Nat} (h : Inv s Q) {e : EId}
    (ha : s.isAlive e = true) (i : Nat) :
    (deletedData s.data Q e)[i]? =
      if i = e.idx then some ⟨EId.maxIndex, e.gen + 1⟩
      else if Q.getLast? = some i then (s.data[i]?).map (fun x => ⟨e.idx, x.gen⟩)
      else s.data[i]? := by
  have hd := (Inv.isAlive_iff s e).1 ha
  have hnm := h.alive_not_mem ha
  have hlt := lt_of_getElem?_some hd
  rcases List.eq_nil_or_concat Q with rfl | ⟨Q', n, rfl⟩
  · simp only [deletedData, List.getLast?_nil]
    split
    · rename_i hi; subst hi; exact List.getElem?_set_self hlt
    · rename_i hi; rw [List.getElem?_set_ne (Ne.symm hi)]; simp
  · rw [List.concat_eq_append] at *
    have hn : n ∈ Q' ++ [n] := by simp
    obtain ⟨x, hx, _⟩ := h.mem hn
    have hne : e.idx ≠ n := by rintro rfl; exact hnm hn
    have hnlt := lt_of_getElem?_some hx
    simp only [deletedData, List.getLast?_append, List.getLast?_singleton, Option.some_or, hx,
      Option.some.injEq]
    split
    · rename_i hi; subst hi
      rw [List.getElem?_set_ne (Ne.symm hne)]; exact List.getElem?_set_self hlt
    · rename_i hi
      split
      · rename_i hni; subst hni
        rw [List.getElem?_set_self (by simpa using hnlt), hx]; rfl
      · rename_i hni
        rw [List.getElem?_set_ne hni, List.getElem?_set_ne (Ne.symm hi)]

theorem deletedData_length (d : List EId) (Q : List Nat) (e : EId) :
    (deletedData d Q e).length = d.length := by
  unfold deletedData; split <;> (try split) <;> simp

theorem delete_inv {s : Entities} {Q : List Nat} (h : Inv s Q) {e : EId}
    (ha : s.isAlive e = true) (hg : e.gen < 65533) :
    Inv { s with data := deletedData s.data Q e, list := listOf (Q ++ [e.idx]) }
      (Q ++ [e.idx]) := by
  have hnm := h.alive_not_mem ha
  have hget := deletedData_getElem? h ha
  refine ⟨rfl, ?_, ?_, ?_, by simpa [deletedData_length] using h.cap, ?_⟩
  · rw [List.nodup_append]
    refine ⟨h.nodup, by simp, ?_⟩
    intro a ha' b hb
    simp at hb; subst hb; rintro rfl; exact hnm ha'
  · rw [Seg.append]
    refine ⟨?_, ?_⟩
    · simp only [List.headD_cons]
      rcases List.eq_nil_or_concat Q with rfl | ⟨Q', n, rfl⟩
      · trivial
      · rw [List.concat_eq_append] at *
        have hn : n ∈ Q' ++ [n] := by simp
        have hch := Seg.append.1 h.chain
        rw [Seg.append]
        have hnd := h.nodup
        rw [List.nodup_append] at hnd
        refine ⟨?_, ?_⟩
        · refine Seg.frame ?_ hch.1
          intro q hq
          rw [hget q, if_neg, if_neg]
          · intro hh
            simp at hh
            exact hnd.2.2 q hq n (by simp) hh.symm
          · rintro rfl; exact hnm (by simp [hq])
        · refine ⟨?_, trivial⟩
          obtain ⟨g, hgg⟩ := hch.2.1
          refine ⟨g, ?_⟩
          rw [hget n, if_neg (by rintro rfl; exact hnm hn), if_pos (by simp), hgg]
          rfl
    · refine ⟨⟨e.gen + 1, ?_⟩, trivial⟩
      rw [hget, if_pos rfl]; rfl
  · intro i x hx hi
    simp only [List.mem_append, List.mem_singleton, not_or] at hi
    simp only at hx
    rw [hget, if_neg hi.2, if_neg] at hx
    · exact h.own i x hx hi.1
    · intro hl; exact hi.1 (List.mem_of_getLast? hl)
  · intro i x hx
    simp only at hx
    rw [hget] at hx
    split at hx
    · cases hx; simp only; omega
    · split at hx
      · rcases ho : s.data[i]? with _ | o
        · rw [ho] at hx; cases hx
        · rw [ho] at hx; cases hx; exact h.gens i o ho
      · exact h.gens i x hx

theorem callHook_inv {s : Entities} {Q : List Nat} (h : Inv s Q) (e : EId) :
    Inv (s.callHook e) Q := by
  unfold callHook; split
  · exact ⟨h.list, h.nodup, h.chain, h.own, h.cap, h.gens⟩
  · exact h

@[simp] theorem callHook_data (s : Entities) (e : EId) : (s.callHook e).data = s.data := by
  unfold callHook; split <;> rfl

@[simp] theorem callHook_isAlive (s : Entities) (e x : EId) :
    (s.callHook e).isAlive x = s.isAlive x := by
  unfold isAlive; rw [callHook_data]

end Verif.Entities
