import Verif.Spec.Memory
import Verif.Lemmas.StorageSpec

/-! # Lemmas: the pages of a storage -/
namespace Verif.Memory
open StoSpec
variable {T : Type}

/-- Which pages are allocated. -/
def shape (a : SparseArray) : List Bool := a.map Option.isSome

theorem setU_shape {a a' : SparseArray} {e v : EId} (h : a.setU e v = .ok a') : shape a' = shape a := by
  unfold SparseArray.setU at h
  split at h
  · cases h
  · cases h
  · rename_i p hp
    split at h
    · simp only [Except.ok.injEq] at h
      rw [← h]
      unfold shape
      apply List.ext_getElem?
      intro i
      rw [List.getElem?_map, List.getElem?_map]
      by_cases hi : e.bucket = i
      · subst hi
        rw [List.getElem?_set_self (SparseArray.lt_of_some hp), hp]
        rfl
      · rw [List.getElem?_set_ne hi]
    · cases h

theorem allocPage_shape {a a' : SparseArray} {b : Nat} (h : a.allocPage b = .ok a') :
    b < a.length ∧ shape a' = (shape a).set b true := by
  unfold SparseArray.allocPage at h
  split at h
  · rename_i p hp
    simp only [Except.ok.injEq] at h
    rw [← h]
    have hb := SparseArray.lt_of_some hp
    refine ⟨hb, ?_⟩
    apply List.ext_getElem?
    intro i
    by_cases hi : b = i
    · subst hi
      rw [List.getElem?_set_self (by simpa [shape] using hb)]
      unfold shape
      rw [List.getElem?_map, hp]
      rfl
    · rw [List.getElem?_set_ne hi]
  · rename_i hp
    simp only [Except.ok.injEq] at h
    rw [← h]
    refine ⟨SparseArray.lt_of_some hp, ?_⟩
    unfold shape
    rw [List.map_set]
    rfl
  · cases h

theorem grow_shape (a : SparseArray) (n : Nat) : shape (a.grow n) = shape a ++ List.replicate (n + 1 - a.length) false := by
  unfold SparseArray.grow shape
  split
  · simp
  · rename_i h
    have : n + 1 - a.length = 0 := by omega
    rw [this]
    simp

theorem allocPages_shape {a a' : SparseArray} {b n : Nat} (h : a.allocPages b n = .ok a') :
    (∀ c : Nat, (shape a')[c]? = some true ↔ (shape a)[c]? = some true ∨ (b ≤ c ∧ c < b + n)) ∧ a'.length = a.length := by
  induction n generalizing a b with
  | zero =>
    simp only [SparseArray.allocPages, Except.ok.injEq] at h
    rw [← h]
    exact ⟨fun c => ⟨.inl, fun h => h.elim id (fun h => by omega)⟩, rfl⟩
  | succ n ih =>
    unfold SparseArray.allocPages at h
    simp only [bind, Except.bind] at h
    cases h1 : a.allocPage b with
    | error f => rw [h1] at h; cases h
    | ok a1 =>
      rw [h1] at h
      obtain ⟨hb, hs⟩ := allocPage_shape h1
      obtain ⟨ih1, ih2⟩ := ih h
      have hl : a1.length = a.length := by
        have := congrArg List.length hs
        simpa [shape] using this
      refine ⟨fun c => ?_, ih2.trans hl⟩
      rw [ih1 c, hs]
      by_cases hc : b = c
      · subst hc
        rw [List.getElem?_set_self (by simpa [shape] using hb)]
        exact ⟨fun _ => .inr ⟨by omega, by omega⟩, fun _ => .inl rfl⟩
      · rw [List.getElem?_set_ne hc]
        constructor
        · rintro (h | h)
          · exact .inl h
          · exact .inr (by omega)
        · rintro (h | h)
          · exact .inl h
          · exact .inr (by omega)

theorem getElem?_append_false (l : List Bool) (n c : Nat) :
    (l ++ List.replicate n false)[c]? = some true ↔ l[c]? = some true := by
  rw [List.getElem?_append]
  split
  · rfl
  · rename_i h
    rw [List.getElem?_replicate, List.getElem?_eq_none (by omega : l.length ≤ c)]
    split <;> simp

/-- The pages after one call: those from before and those between `lo` and `hi`. -/
structure Grown (a a' : SparseArray) (lo hi : Nat) : Prop where
  pages : ∀ c : Nat, (shape a')[c]? = some true ↔ (shape a)[c]? = some true ∨ (lo ≤ c ∧ c ≤ hi)
  length : ∀ c : Nat, c < a'.length ↔ c < a.length ∨ c ≤ hi

theorem allocateAt_grown {a a' : SparseArray} {e : EId} (h : a.allocateAt e = .ok a') :
    Grown a a' (e.idx / 32) (e.idx / 32) := by
  unfold SparseArray.allocateAt at h
  split at h
  · cases h
  · obtain ⟨hb, hs⟩ := allocPage_shape h
    have hl : a'.length = a.length + (e.idx / 32 + 1 - a.length) := by
      have := congrArg List.length hs
      rw [grow_shape] at this
      simpa [shape, EId.bucket, EId.BUCKET_SIZE] using this
    constructor
    · intro c
      rw [hs, grow_shape]
      by_cases hc : e.bucket = c
      · subst hc
        rw [List.getElem?_set_self (by rw [← grow_shape]; simpa [shape] using hb)]
        exact ⟨fun _ => .inr ⟨Nat.le_refl _, Nat.le_refl _⟩, fun _ => rfl⟩
      · rw [List.getElem?_set_ne hc, getElem?_append_false]
        have hc : ¬ (e.idx / 32 ≤ c ∧ c ≤ e.idx / 32) := by
          intro ⟨h1, h2⟩
          exact hc (Nat.le_antisymm h1 h2)
        exact ⟨.inl, fun h => h.elim id (fun h => absurd h hc)⟩
    · intro c
      omega

theorem bulkAllocate_grown {a a' : SparseArray} {x y : EId} (hxy : x.idx ≤ y.idx) (h : a.bulkAllocate x y = .ok a') :
    Grown a a' (x.idx / 32) (y.idx / 32) := by
  unfold SparseArray.bulkAllocate at h
  obtain ⟨h1, h2⟩ := allocPages_shape h
  have hd : x.idx / 32 ≤ y.idx / 32 := Nat.div_le_div_right hxy
  have hx : x.bucket = x.idx / 32 := rfl
  have hy : y.bucket = y.idx / 32 := rfl
  rw [hx, hy] at h1
  have hl : a'.length = a.length + (y.idx / 32 + 1 - a.length) := by
    rw [h2]
    have := congrArg List.length (grow_shape a y.bucket)
    simpa [shape, EId.bucket, EId.BUCKET_SIZE] using this
  constructor
  · intro c
    rw [h1 c, grow_shape, getElem?_append_false]
    constructor
    · rintro (h | h)
      · exact .inl h
      · exact .inr (by omega)
    · rintro (h | h)
      · exact .inl h
      · exact .inr (by omega)
  · intro c
    omega

theorem killAll_shape {a a' : SparseArray} {es : List EId} (h : SparseSet.killAll a es = .ok a') : shape a' = shape a := by
  induction es generalizing a with
  | nil => simp only [SparseSet.killAll, Except.ok.injEq] at h; rw [h]
  | cons e es ih =>
    simp only [SparseSet.killAll, bind, Except.bind] at h
    cases h1 : a.setU e EId.dead with
    | error f => rw [h1] at h; cases h
    | ok a1 => rw [h1] at h; exact (ih h).trans (setU_shape h1)

theorem bulkFill_shape {a a' : SparseArray} {i : Nat} {es : List EId} (h : SparseSet.bulkFill a i es = .ok a') :
    shape a' = shape a := by
  induction es generalizing a i with
  | nil => simp only [SparseSet.bulkFill, Except.ok.injEq] at h; rw [h]
  | cons e es ih =>
    simp only [SparseSet.bulkFill, bind, Except.bind] at h
    cases h0 : EId.new i with
    | error f => rw [h0] at h; cases h
    | ok x =>
      rw [h0] at h
      dsimp only at h
      cases h1 : a.setU e x with
      | error f => rw [h1] at h; cases h
      | ok a1 => rw [h1] at h; exact (ih h).trans (setU_shape h1)

theorem reindex_shape {a a' : SparseArray} {i : Nat} {es : List EId} (h : SparseSet.reindex a i es = .ok a') :
    shape a' = shape a := by
  induction es generalizing a i with
  | nil => simp only [SparseSet.reindex, Except.ok.injEq] at h; rw [h]
  | cons e es ih =>
    simp only [SparseSet.reindex, bind, Except.bind] at h
    cases h0 : a.getU e with
    | error f => rw [h0] at h; cases h
    | ok x =>
      rw [h0] at h
      dsimp only at h
      cases h2 : x.setIndex i with
      | error f => rw [h2] at h; cases h
      | ok y =>
        rw [h2] at h
        dsimp only at h
        cases h1 : a.setU e y with
        | error f => rw [h1] at h; cases h
        | ok a1 => rw [h1] at h; exact (ih h).trans (setU_shape h1)

theorem relink_shape {a a' : SparseArray} {d : List EId} {x : EId} (h : SparseSet.relink a d x = .ok a') :
    shape a' = shape a := by
  unfold SparseSet.relink at h
  split at h
  · simp only [bind, Except.bind] at h
    split at h
    · cases h
    · split at h
      · cases h
      · exact setU_shape h
  · simp only [Except.ok.injEq] at h; rw [h]

theorem callRem_sparse (s : SparseSet T) (e : EId) (v : T) : (s.callRem e v).sparse = s.sparse := by
  unfold SparseSet.callRem; split <;> rfl

theorem callIns_sparse (s : SparseSet T) (e : EId) (v : T) : (s.callIns e v).sparse = s.sparse := by
  unfold SparseSet.callIns; split <;> rfl

theorem actualRemove_shape {s s' : SparseSet T} {e : EId} {r : Option T} (h : s.actualRemove e = .ok (r, s')) :
    shape s'.sparse = shape s.sparse := by
  unfold SparseSet.actualRemove at h
  simp only [bind, Except.bind] at h
  split at h
  · cases h
  · split at h
    · simp only [Except.ok.injEq, Prod.mk.injEq] at h; rw [← h.2]
    · split at h
      · split at h
        · cases h
        · rename_i sp hsp
          split at h
          · cases h
          · split at h
            · cases h
            · split at h
              · cases h
              · split at h
                · cases h
                · split at h
                  · cases h
                  · rename_i sp' hsp'
                    have := (relink_shape hsp').trans (setU_shape hsp)
                    split at h
                    · simp only [Except.ok.injEq, Prod.mk.injEq] at h
                      rw [← h.2, callRem_sparse]; exact this
                    · simp only [Except.ok.injEq, Prod.mk.injEq] at h
                      rw [← h.2]; exact this
      · simp only [Except.ok.injEq, Prod.mk.injEq] at h; rw [← h.2]

theorem dynDelete_shape {s s' : SparseSet T} {e : EId} {now : Nat} {r : Bool} (h : s.dynDelete e now = .ok (r, s')) :
    shape s'.sparse = shape s.sparse := by
  unfold SparseSet.dynDelete at h
  simp only [bind, Except.bind] at h
  split at h
  · cases h
  · rename_i p hp
    obtain ⟨o, s1⟩ := p
    have := actualRemove_shape hp
    cases o with
    | none =>
      simp only [Except.ok.injEq, Prod.mk.injEq] at h
      rw [← h.2]; exact this
    | some c =>
      simp only [Except.ok.injEq, Prod.mk.injEq] at h
      rw [← h.2]
      split <;> exact this

theorem dynRemove_shape {s s' : SparseSet T} {e : EId} {now : Nat} {r : Option T} (h : s.dynRemove e now = .ok (r, s')) :
    shape s'.sparse = shape s.sparse := by
  unfold SparseSet.dynRemove at h
  simp only [bind, Except.bind] at h
  split at h
  · cases h
  · rename_i p hp
    obtain ⟨o, s1⟩ := p
    have := actualRemove_shape hp
    simp only [Except.ok.injEq, Prod.mk.injEq] at h
    rw [← h.2]
    split <;> exact this

theorem retainLoop_shape {σ : Type} {f : σ → EId → T → Bool × σ} {now : Nat} :
    ∀ {n : Nat} {s s' : SparseSet T} {st st' : σ} {pos : Nat}, SparseSet.retainLoop f now s st pos n = .ok (st', s') →
      shape s'.sparse = shape s.sparse
  | 0, s, s', st, st', pos, h => by
    simp only [SparseSet.retainLoop, Except.ok.injEq, Prod.mk.injEq] at h
    rw [h.2]
  | n + 1, s, s', st, st', pos, h => by
    simp only [SparseSet.retainLoop, bind, Except.bind] at h
    split at h
    · cases h
    · split at h
      · cases h
      · split at h
        · exact retainLoop_shape h
        · split at h
          · cases h
          · rename_i p hp
            exact (retainLoop_shape h).trans (dynDelete_shape hp)

theorem writeOpt_shape {s s' : SparseSet T} {i now : Nat} {w : Option T} (h : s.writeOpt i now w = .ok s') :
    shape s'.sparse = shape s.sparse := by
  unfold SparseSet.writeOpt at h
  split at h
  · unfold SparseSet.writeRow at h
    simp only [bind, Except.bind] at h
    split at h
    · cases h
    · split at h
      · cases h
      · simp only [Except.ok.injEq] at h; rw [← h]
  · simp only [Except.ok.injEq] at h; rw [h]

theorem retainMutLoop_shape {σ : Type} {f : σ → EId → T → Option T × Bool × σ} {now : Nat} :
    ∀ {n : Nat} {s s' : SparseSet T} {st st' : σ} {pos : Nat}, SparseSet.retainMutLoop f now s st pos n = .ok (st', s') →
      shape s'.sparse = shape s.sparse
  | 0, s, s', st, st', pos, h => by
    simp only [SparseSet.retainMutLoop, Except.ok.injEq, Prod.mk.injEq] at h
    rw [h.2]
  | n + 1, s, s', st, st', pos, h => by
    simp only [SparseSet.retainMutLoop, bind, Except.bind] at h
    split at h
    · cases h
    · split at h
      · cases h
      · split at h
        · cases h
        · rename_i s1 hs1
          split at h
          · exact (retainMutLoop_shape h).trans (writeOpt_shape hs1)
          · split at h
            · cases h
            · rename_i p hp
              exact ((retainMutLoop_shape h).trans (dynDelete_shape hp)).trans (writeOpt_shape hs1)

theorem sortLoop_sparse {perm : List Nat} : ∀ {n : Nat} {s s' : SparseSet T} {i : Nat},
    SparseSet.sortLoop perm s i n = .ok s' → s'.sparse = s.sparse
  | 0, s, s', i, h => by simp only [SparseSet.sortLoop, Except.ok.injEq] at h; rw [h]
  | n + 1, s, s', i, h => by
    simp only [SparseSet.sortLoop, bind, Except.bind] at h
    split at h
    · cases h
    · split at h
      · cases h
      · split at h
        · cases h
        · split at h
          · cases h
          · split at h
            · cases h
            · split at h
              · cases h
              · exact (sortLoop_sparse h).trans rfl

theorem insert_grown {s s' : SparseSet T} {e : EId} {v : T} {now : Nat} {r : InsertionResult T}
    (h : s.insert e v now = .ok (r, s')) : Grown s.sparse s'.sparse (e.idx / 32) (e.idx / 32) := by
  unfold SparseSet.insert at h
  simp only [bind, Except.bind] at h
  split at h
  · cases h
  · rename_i sp hsp
    have hg := allocateAt_grown hsp
    have key : shape s'.sparse = shape sp → Grown s.sparse s'.sparse (e.idx / 32) (e.idx / 32) := by
      intro he
      have hl : s'.sparse.length = sp.length := by
        have := congrArg List.length he
        simpa [shape] using this
      exact ⟨fun c => by rw [he]; exact hg.pages c, fun c => by rw [hl]; exact hg.length c⟩
    apply key
    split at h
    · cases h
    · split at h
      · split at h
        · cases h
        · split at h
          · cases h
          · rename_i sp' hsp'
            simp only [Except.ok.injEq, Prod.mk.injEq] at h
            rw [← h.2]
            exact (setU_shape hsp').trans (by rw [callIns_sparse])
      · split at h
        · split at h
          · cases h
          · split at h
            · cases h
            · split at h
              · cases h
              · rename_i sp' hsp'
                have := (setU_shape hsp').trans (by rw [callIns_sparse] : _ = shape sp)
                split at h
                · cases h
                · split at h
                  · cases h
                  · split at h
                    · cases h
                    · simp only [Except.ok.injEq, Prod.mk.injEq] at h
                      rw [← h.2]
                      exact this
        · split at h
          · split at h
            · cases h
            · split at h
              · cases h
              · rename_i sp' hsp'
                have := (setU_shape hsp').trans (by rw [callIns_sparse] : _ = shape sp)
                split at h
                · cases h
                · split at h
                  · cases h
                  · split at h
                    · cases h
                    · simp only [Except.ok.injEq, Prod.mk.injEq] at h
                      rw [← h.2]
                      exact this
          · simp only [Except.ok.injEq, Prod.mk.injEq] at h
            rw [← h.2]

theorem bulkInsert_grown {s s' : SparseSet T} {start stamp : Nat} {vs : List T}
    (h : s.bulkInsert ((List.range vs.length).map fun k => ⟨start + k, 0⟩) vs stamp = .ok s') :
    0 < vs.length ∧ Grown s.sparse s'.sparse (start / 32) ((start + vs.length - 1) / 32) := by
  unfold SparseSet.bulkInsert at h
  have hpos : 0 < vs.length := by
    rcases Nat.eq_zero_or_pos vs.length with hz | hz
    · rw [hz] at h
      simp at h
    · exact hz
  refine ⟨hpos, ?_⟩
  have h1 : (s.dense ++ (List.range vs.length).map fun k => (⟨start + k, 0⟩ : EId))[s.dense.length]? = some ⟨start, 0⟩ := by
    rw [List.getElem?_append_right (Nat.le_refl _), Nat.sub_self, List.getElem?_map, List.getElem?_range hpos]
    rfl
  have h2 : (s.dense ++ (List.range vs.length).map fun k => (⟨start + k, 0⟩ : EId))[
      (s.dense ++ (List.range vs.length).map fun k => (⟨start + k, 0⟩ : EId)).length - 1]? = some ⟨start + (vs.length - 1), 0⟩ := by
    have hl : (s.dense ++ (List.range vs.length).map fun k => (⟨start + k, 0⟩ : EId)).length - 1 = s.dense.length + (vs.length - 1) := by
      simp; omega
    rw [hl, List.getElem?_append_right (by omega), Nat.add_sub_cancel_left, List.getElem?_map, List.getElem?_range (by omega)]
    rfl
  simp only [h1, h2, bind, Except.bind] at h
  split at h
  · cases h
  · rename_i sp hsp
    have hg := bulkAllocate_grown (x := ⟨start, 0⟩) (y := ⟨start + (vs.length - 1), 0⟩) (by show start ≤ start + _; omega) hsp
    split at h
    · cases h
    · rename_i sp' hsp'
      simp only [Except.ok.injEq] at h
      have he := bulkFill_shape hsp'
      have hl : sp'.length = sp.length := by
        have := congrArg List.length he
        simpa [shape] using this
      rw [← h]
      have e : start + vs.length - 1 = start + (vs.length - 1) := by omega
      rw [e]
      exact ⟨fun c => by show (shape sp')[c]? = _ ↔ _; rw [he]; exact hg.pages c,
        fun c => by show c < sp'.length ↔ _; rw [hl]; exact hg.length c⟩

/-- The pages after one call. -/
theorem step_pages {s s' : SparseSet T} {ev : Event T} (hs : Step s ev s') :
    (∀ b : Nat, (shape s'.sparse)[b]? = some true ↔ (shape s.sparse)[b]? = some true ∨ ∃ i, Gives ev i ∧ b = i / 32) ∧
    (∀ b : Nat, b < s'.sparse.length ↔ b < s.sparse.length ∨ ∃ i, Gives ev i ∧ b ≤ i / 32) := by
  have same : shape s'.sparse = shape s.sparse → (∀ i, ¬ Gives ev i) →
      (∀ b : Nat, (shape s'.sparse)[b]? = some true ↔ (shape s.sparse)[b]? = some true ∨ ∃ i, Gives ev i ∧ b = i / 32) ∧
      (∀ b : Nat, b < s'.sparse.length ↔ b < s.sparse.length ∨ ∃ i, Gives ev i ∧ b ≤ i / 32) := by
    intro he hn
    have hl : s'.sparse.length = s.sparse.length := by
      have := congrArg List.length he
      simpa [shape] using this
    exact ⟨fun b => by rw [he]; exact ⟨.inl, fun h => h.elim id (fun ⟨i, hi, _⟩ => absurd hi (hn i))⟩,
      fun b => by rw [hl]; exact ⟨.inl, fun h => h.elim id (fun ⟨i, hi, _⟩ => absurd hi (hn i))⟩⟩
  cases hs with
  | insert _ h =>
    have hg := insert_grown h
    constructor
    · intro b
      rw [hg.pages b]
      constructor
      · rintro (h | h)
        · exact .inl h
        · exact .inr ⟨_, rfl, Nat.le_antisymm h.2 h.1⟩
      · rintro (h | ⟨i, hi, hb⟩)
        · exact .inl h
        · have hi : i = _ := hi
          subst hi; exact .inr ⟨Nat.le_of_eq hb.symm, Nat.le_of_eq hb⟩
    · intro b
      rw [hg.length b]
      constructor
      · rintro (h | h)
        · exact .inl h
        · exact .inr ⟨_, rfl, h⟩
      · rintro (h | ⟨i, hi, hb⟩)
        · exact .inl h
        · have hi : i = _ := hi
          subst hi; exact .inr hb
  | @bulk start stamp vs _ _ _ h =>
    obtain ⟨hpos, hg⟩ := bulkInsert_grown h
    constructor
    · intro b
      rw [hg.pages b]
      constructor
      · rintro (h | h)
        · exact .inl h
        · refine .inr ⟨max start (b * 32), ⟨by omega, by omega⟩, by omega⟩
      · rintro (h | ⟨i, hi, hb⟩)
        · exact .inl h
        · have hi : start ≤ i ∧ i < start + vs.length := hi
          exact .inr (by omega)
    · intro b
      rw [hg.length b]
      constructor
      · rintro (h | h)
        · exact .inl h
        · refine .inr ⟨start + vs.length - 1, ⟨by omega, by omega⟩, h⟩
      · rintro (h | ⟨i, hi, hb⟩)
        · exact .inl h
        · have hi : start ≤ i ∧ i < start + vs.length := hi
          exact .inr (by omega)
  | remove _ h => exact same (dynRemove_shape h) (fun _ h => h)
  | delete _ _ h => exact same (dynDelete_shape h) (fun _ h => h)
  | write _ h =>
    refine same ?_ (fun _ h => h)
    unfold SparseSet.modify at h
    simp only [bind, Except.bind] at h
    split at h
    · cases h
    · split at h
      · simp only [Except.ok.injEq, Prod.mk.injEq] at h; cases h.1
      · split at h
        · cases h
        · split at h
          · cases h
          · split at h
            · cases h
            · simp only [Except.ok.injEq, Prod.mk.injEq] at h; rw [← h.2]
  | apply _ _ h =>
    refine same ?_ (fun _ h => h)
    unfold SparseSet.apply at h
    simp only [bind, Except.bind] at h
    repeat' (split at h)
    all_goals first | cases h; done | (simp only [Except.ok.injEq, Prod.mk.injEq] at h; rw [← h.2])
  | applyMut _ _ h =>
    refine same ?_ (fun _ h => h)
    unfold SparseSet.applyMut at h
    simp only [bind, Except.bind] at h
    repeat' (split at h)
    all_goals first | cases h; done | (simp only [Except.ok.injEq, Prod.mk.injEq] at h; rw [← h.2])
  | sort _ h =>
    refine same ?_ (fun _ h => h)
    unfold SparseSet.sortWith at h
    simp only [bind, Except.bind] at h
    split at h
    · cases h
    · rename_i s1 hs1
      split at h
      · cases h
      · rename_i sp hsp
        simp only [Except.ok.injEq] at h
        rw [← h]
        exact (reindex_shape hsp).trans (by rw [sortLoop_sparse hs1])
  | retain h => exact same (retainLoop_shape h) (fun _ h => h)
  | retainMut h => exact same (retainMutLoop_shape h) (fun _ h => h)
  | clear h =>
    refine same ?_ (fun _ h => h)
    unfold SparseSet.clear at h
    simp only [bind, Except.bind] at h
    split at h
    · cases h
    · rename_i sp hsp
      simp only [Except.ok.injEq] at h
      rw [← h]
      exact killAll_shape hsp
  | drain h =>
    refine same ?_ (fun _ h => h)
    unfold SparseSet.drain at h
    simp only [bind, Except.bind] at h
    split at h
    · cases h
    · rename_i sp hsp
      simp only [Except.ok.injEq, Prod.mk.injEq] at h
      rw [← h.2]
      exact killAll_shape hsp
  | trackInsertion => refine same ?_ (fun _ h => h); unfold SparseSet.trackInsertion; split <;> rfl
  | trackModification => refine same ?_ (fun _ h => h); unfold SparseSet.trackModification; split <;> rfl
  | @reserve ids first last _ h1 h2 hle hr =>
    unfold SparseSet.bulkReserve at hr
    rw [h1, h2] at hr
    simp only [bind, Except.bind] at hr
    split at hr
    · cases hr
    rename_i sp hsp
    cases hr
    have hg := bulkAllocate_grown hle hsp
    constructor
    · intro b
      rw [hg.pages b]
      constructor
      · rintro (h | h)
        · exact .inl h
        · by_cases hb : first.idx ≤ 32 * b
          · exact .inr ⟨32 * b, ⟨hb, by omega⟩, by omega⟩
          · exact .inr ⟨first.idx, ⟨Nat.le_refl _, hle⟩, by omega⟩
      · rintro (h | ⟨i, ⟨hi1, hi2⟩, hb⟩)
        · exact .inl h
        · exact .inr (by omega)
    · intro b
      rw [hg.length b]
      constructor
      · rintro (h | h)
        · exact .inl h
        · exact .inr ⟨last.idx, ⟨hle, Nat.le_refl _⟩, h⟩
      · rintro (h | ⟨i, ⟨hi1, hi2⟩, hb⟩)
        · exact .inl h
        · exact .inr (by omega)
  | _ => exact same rfl (fun _ h => h)

/-- The pages after a history. -/
theorem run_pages {s0 s : SparseSet T} {h : List (Event T)} (hr : Run s0 h s) :
    (∀ b : Nat, (shape s.sparse)[b]? = some true ↔ (shape s0.sparse)[b]? = some true ∨ Paged h b) ∧
    (∀ b : Nat, b < s.sparse.length ↔ b < s0.sparse.length ∨ ∃ b', b ≤ b' ∧ Paged h b') := by
  induction hr with
  | nil =>
    refine ⟨fun b => ⟨.inl, fun h => h.elim id ?_⟩, fun b => ⟨.inl, fun h => h.elim id ?_⟩⟩
    · rintro ⟨ev, hm, _⟩; cases hm
    · rintro ⟨_, _, ev, hm, _⟩; cases hm
  | @snoc h s ev s' _ hs ih =>
    obtain ⟨h1, h2⟩ := step_pages hs
    constructor
    · intro b
      rw [h1 b, ih.1 b]
      constructor
      · rintro ((h | ⟨x, hx, hp⟩) | ⟨i, hi, hb⟩)
        · exact .inl h
        · exact .inr ⟨x, List.mem_append_left _ hx, hp⟩
        · exact .inr ⟨ev, by simp, i, hi, hb⟩
      · rintro (h | ⟨x, hx, i, hi, hb⟩)
        · exact .inl (.inl h)
        · rcases List.mem_append.mp hx with hx | hx
          · exact .inl (.inr ⟨x, hx, i, hi, hb⟩)
          · rw [List.mem_singleton.mp hx] at hi
            exact .inr ⟨i, hi, hb⟩
    · intro b
      rw [h2 b, ih.2 b]
      constructor
      · rintro ((h | ⟨b', hb', x, hx, hp⟩) | ⟨i, hi, hb⟩)
        · exact .inl h
        · exact .inr ⟨b', hb', x, List.mem_append_left _ hx, hp⟩
        · exact .inr ⟨i / 32, hb, ev, by simp, i, hi, rfl⟩
      · rintro (h | ⟨b', hb', x, hx, i, hi, hb⟩)
        · exact .inl (.inl h)
        · rcases List.mem_append.mp hx with hx | hx
          · exact .inl (.inr ⟨b', hb', x, hx, i, hi, hb⟩)
          · rw [List.mem_singleton.mp hx] at hi
            exact .inr ⟨i, hi, by omega⟩

theorem pagesMemory_eq (a : SparseArray) : pagesMemory a = 256 * (shape a).count true := by
  have : ∀ (a : SparseArray) (n : Nat),
      a.foldl (fun count page => if page.isSome then count + EId.BUCKET_SIZE * WORD else count) n = n + 256 * (shape a).count true := by
    intro a
    induction a with
    | nil => intro n; rfl
    | cons p a ih =>
      intro n
      rw [List.foldl_cons, ih]
      show _ = n + 256 * (p.isSome :: shape a).count true
      rw [List.count_cons]
      cases p with
      | none => simp
      | some p => simp [EId.BUCKET_SIZE, WORD]; omega
  have := this a 0
  unfold pagesMemory
  omega

theorem count_eq_filter (l : List Bool) :
    l.count true = ((List.range l.length).filter fun b => l[b]? == some true).length := by
  induction l with
  | nil => rfl
  | cons x l ih =>
    rw [List.length_cons, List.range_succ_eq_map, List.filter_cons, List.filter_map, List.count_cons]
    have : ((List.range l.length).filter ((fun b => (x :: l)[b]? == some true) ∘ Nat.succ)).length = l.count true := by
      rw [ih]; rfl
    cases x with
    | false =>
      rw [if_neg (by simp), if_neg (by simp), List.length_map, this]
      rfl
    | true =>
      rw [if_pos (by simp), if_pos (by simp), List.length_cons, List.length_map, this]

theorem count_mono : ∀ {l l' : List Bool}, (∀ b : Nat, l[b]? = some true → l'[b]? = some true) → l.count true ≤ l'.count true
  | [], _, _ => by simp
  | x :: l, [], h => by
    have : ∀ (m : List Bool), (∀ b : Nat, m[b]? = some true → ([] : List Bool)[b]? = some true) → m.count true = 0 := by
      intro m hm
      rw [List.count_eq_zero]
      intro ht
      obtain ⟨i, hi⟩ := List.mem_iff_getElem?.mp ht
      have := hm i hi
      simp at this
    rw [this _ h]
    exact Nat.zero_le _
  | x :: l, y :: l', h => by
    rw [List.count_cons, List.count_cons]
    have ih := count_mono (l := l) (l' := l') (fun b hb => h (b + 1) hb)
    have h0 := h 0
    cases x <;> cases y <;> simp at h0 ⊢ <;> omega

end Verif.Memory
