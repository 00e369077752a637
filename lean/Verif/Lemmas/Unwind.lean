import Verif.Spec.Unwind
import Verif.Lemmas.StorageSpec

/-! # Lemmas: storages after a panic in user code -/
namespace Verif.SparseSet
open EId (BUCKET_SIZE)
open SparseArray (WFA look has)
open StoSpec (Sto Row Event Call Step Valid Cut PEvent PStep PRun)
variable {T : Type}

/-! ## When user code does not panic, or the call returns anyway -/

/-- What an interruptible call reports when it was not interrupted. -/
def Out.lift {α : Type} : Res (α × SparseSet T) → Res (Out α × SparseSet T)
  | .ok (a, s) => .ok (.returned a, s)
  | .error f => .error f

theorem insertU_plain (s : SparseSet T) (e : EId) (v : T) (now : Nat) :
    s.insertU e v now false false = Out.lift (s.insert e v now) := by
  unfold insertU insert
  simp only [bind, Except.bind, Bool.and_false, Bool.false_eq_true, if_false]
  cases s.sparse.allocateAt e with
  | error => rfl
  | ok sp =>
    simp only
    cases sp.getU e with
    | error => rfl
    | ok x =>
      simp only
      split
      · cases EId.fromParts _ _ with
        | error => rfl
        | ok x' =>
          simp only
          cases SparseArray.setU _ _ _ <;> rfl
      · split
        · cases vecGetU _ x.idx with
          | error => rfl
          | ok old =>
            simp only
            cases vecSetU _ x.idx v with
            | error => rfl
            | ok data =>
              simp only
              cases SparseArray.setU _ _ _ with
              | error => rfl
              | ok sp2 =>
                simp only
                cases vecGetU (SparseSet.dense _) x.idx with
                | error => rfl
                | ok d =>
                  simp only
                  cases setUIf _ _ _ _ with
                  | error => rfl
                  | ok m =>
                    simp only
                    cases vecSetU _ _ _ <;> rfl
        · split
          · cases vecSetU _ x.idx v with
            | error => rfl
            | ok data =>
              simp only
              cases SparseArray.setU _ _ _ with
              | error => rfl
              | ok sp2 =>
                simp only
                cases vecGetU _ x.idx with
                | error => rfl
                | ok d =>
                  simp only
                  cases setUIf _ _ _ _ with
                  | error => rfl
                  | ok m =>
                    simp only
                    cases vecSetU _ _ _ <;> rfl
          · rfl

theorem insertU_returned {s s' : SparseSet T} {e : EId} {v : T} {now : Nat} {hp dp : Bool}
    {r : InsertionResult T} (h : s.insertU e v now hp dp = .ok (.returned r, s')) :
    s.insert e v now = .ok (r, s') := by
  unfold insertU at h
  unfold insert
  simp only [bind, Except.bind] at h ⊢
  cases ha : s.sparse.allocateAt e with
  | error => rw [ha] at h; cases h
  | ok sp =>
    rw [ha] at h
    simp only at h ⊢
    cases hg : sp.getU e with
    | error => rw [hg] at h; cases h
    | ok x =>
      rw [hg] at h
      simp only at h ⊢
      by_cases hx : x.isDead = true
      · rw [if_pos hx] at h ⊢
        split at h
        · cases h
        · cases hf : EId.fromParts (callIns { s with sparse := sp } e v).dense.length e.gen with
          | error => rw [hf] at h; cases h
          | ok x' =>
            rw [hf] at h
            simp only at h ⊢
            cases hs : (callIns { s with sparse := sp } e v).sparse.setU e x' with
            | error => rw [hs] at h; cases h
            | ok sp2 => rw [hs] at h; cases h; rfl
      · rw [if_neg hx] at h ⊢
        by_cases h1 : e.gen = x.gen
        · rw [if_pos h1] at h ⊢
          split at h
          · cases h
          · revert h
            cases vecGetU (callIns { s with sparse := sp } e v).data x.idx with
            | error => intro h; cases h
            | ok old =>
              simp only
              cases vecSetU (callIns { s with sparse := sp } e v).data x.idx v with
              | error => intro h; cases h
              | ok data =>
                simp only
                cases (callIns { s with sparse := sp } e v).sparse.setU e (x.copyGen e) with
                | error => intro h; cases h
                | ok sp2 =>
                  simp only
                  cases vecGetU (callIns { s with sparse := sp } e v).dense x.idx with
                  | error => intro h; cases h
                  | ok d =>
                    simp only
                    cases setUIf (callIns { s with sparse := sp } e v).trkMod
                        (callIns { s with sparse := sp } e v).modificationData x.idx now with
                    | error => intro h; cases h
                    | ok m =>
                      simp only
                      cases vecSetU (callIns { s with sparse := sp } e v).dense x.idx (d.copyIndexGen e) with
                      | error => intro h; cases h
                      | ok dn => intro h; cases h; rfl
        · rw [if_neg h1] at h ⊢
          by_cases h2 : e.gen > x.gen
          · rw [if_pos h2] at h ⊢
            split at h
            · cases h
            · revert h
              cases vecSetU (callIns { s with sparse := sp } e v).data x.idx v with
              | error => intro h; cases h
              | ok data =>
                simp only
                split
                · intro h; cases h
                · cases (callIns { s with sparse := sp } e v).sparse.setU e (x.copyGen e) with
                  | error => intro h; cases h
                  | ok sp2 =>
                    simp only
                    cases vecGetU (callIns { s with sparse := sp } e v).dense x.idx with
                    | error => intro h; cases h
                    | ok d =>
                      simp only
                      cases setUIf (callIns { s with sparse := sp } e v).trkIns
                          (callIns { s with sparse := sp } e v).insertionData x.idx now with
                      | error => intro h; cases h
                      | ok m =>
                        simp only
                        cases vecSetU (callIns { s with sparse := sp } e v).dense x.idx (d.copyIndexGen e) with
                        | error => intro h; cases h
                        | ok dn => intro h; cases h; rfl
          · rw [if_neg h2] at h ⊢
            cases h; rfl

theorem insertU_total {s s' : SparseSet T} {e : EId} {v : T} {now : Nat} (hp dp : Bool)
    {r : InsertionResult T} (h : s.insert e v now = .ok (r, s')) :
    ∃ out s1, s.insertU e v now hp dp = .ok (out, s1) := by
  unfold insertU
  unfold insert at h
  simp only [bind, Except.bind] at h ⊢
  cases ha : s.sparse.allocateAt e with
  | error => rw [ha] at h; cases h
  | ok sp =>
    rw [ha] at h
    simp only at h ⊢
    cases hg : sp.getU e with
    | error => rw [hg] at h; cases h
    | ok x =>
      rw [hg] at h
      simp only at h ⊢
      by_cases hx : x.isDead = true
      · rw [if_pos hx] at h ⊢
        split
        · exact ⟨_, _, rfl⟩
        · cases hf : EId.fromParts (callIns { s with sparse := sp } e v).dense.length e.gen with
          | error => rw [hf] at h; cases h
          | ok x' =>
            rw [hf] at h
            simp only at h ⊢
            cases hs : (callIns { s with sparse := sp } e v).sparse.setU e x' with
            | error => rw [hs] at h; cases h
            | ok sp2 => exact ⟨_, _, rfl⟩
      · rw [if_neg hx] at h ⊢
        by_cases h1 : e.gen = x.gen
        · rw [if_pos h1] at h ⊢
          split
          · exact ⟨_, _, rfl⟩
          · revert h
            cases vecGetU (callIns { s with sparse := sp } e v).data x.idx with
            | error => intro h; cases h
            | ok old =>
              simp only
              cases vecSetU (callIns { s with sparse := sp } e v).data x.idx v with
              | error => intro h; cases h
              | ok data =>
                simp only
                cases (callIns { s with sparse := sp } e v).sparse.setU e (x.copyGen e) with
                | error => intro h; cases h
                | ok sp2 =>
                  simp only
                  cases vecGetU (callIns { s with sparse := sp } e v).dense x.idx with
                  | error => intro h; cases h
                  | ok d =>
                    simp only
                    cases setUIf (callIns { s with sparse := sp } e v).trkMod
                        (callIns { s with sparse := sp } e v).modificationData x.idx now with
                    | error => intro h; cases h
                    | ok m =>
                      simp only
                      cases vecSetU (callIns { s with sparse := sp } e v).dense x.idx (d.copyIndexGen e) with
                      | error => intro h; cases h
                      | ok dn => intro _; exact ⟨_, _, rfl⟩
        · rw [if_neg h1] at h ⊢
          by_cases h2 : e.gen > x.gen
          · rw [if_pos h2] at h ⊢
            split
            · exact ⟨_, _, rfl⟩
            · revert h
              cases vecSetU (callIns { s with sparse := sp } e v).data x.idx v with
              | error => intro h; cases h
              | ok data =>
                simp only
                by_cases hd : dp = true
                · rw [if_pos hd]; intro _; exact ⟨_, _, rfl⟩
                · rw [if_neg hd]
                  cases (callIns { s with sparse := sp } e v).sparse.setU e (x.copyGen e) with
                  | error => intro h; cases h
                  | ok sp2 =>
                    simp only
                    cases vecGetU (callIns { s with sparse := sp } e v).dense x.idx with
                    | error => intro h; cases h
                    | ok d =>
                      simp only
                      cases setUIf (callIns { s with sparse := sp } e v).trkIns
                          (callIns { s with sparse := sp } e v).insertionData x.idx now with
                      | error => intro h; cases h
                      | ok m =>
                        simp only
                        cases vecSetU (callIns { s with sparse := sp } e v).dense x.idx (d.copyIndexGen e) with
                        | error => intro h; cases h
                        | ok dn => intro _; exact ⟨_, _, rfl⟩
          · rw [if_neg h2]
            exact ⟨_, _, rfl⟩

/-- How `actual_remove` ends, given what it would return if nothing panicked. -/
theorem actualRemoveU_eq (s : SparseSet T) (e : EId) (hp dp : Bool) :
    (∀ f, s.actualRemove e = .error f → s.actualRemoveU e hp dp = .error f) ∧
    (∀ c s1, s.actualRemove e = .ok (some c, s1) → s.actualRemoveU e hp dp =
      .ok (if s.hookRem && hp then .unwound .hook else .returned (some c), s1)) ∧
    (∀ s1, s.actualRemove e = .ok (none, s1) → s.actualRemoveU e hp dp = .ok (.returned none, s1) ∨
      (dp = true ∧ s.actualRemoveU e hp dp = .ok (.unwound .dtor, s1))) := by
  unfold actualRemove actualRemoveU
  simp only [bind, Except.bind]
  cases s.sparse.get e with
  | error f => exact ⟨fun f h => by cases h; rfl, fun c s1 h => (by cases h), fun s1 h => (by cases h)⟩
  | ok o =>
    simp only
    cases o with
    | none =>
      exact ⟨fun f h => (by cases h), fun c s1 h => (by cases h), fun s1 h => (by cases h; exact .inl rfl)⟩
    | some x =>
      simp only
      split
      · cases s.sparse.setU e EId.dead with
        | error f => exact ⟨fun f h => by cases h; rfl, fun c s1 h => (by cases h), fun s1 h => (by cases h)⟩
        | ok sp =>
          simp only
          cases swapRemove s.dense x.idx with
          | error f =>
            exact ⟨fun f h => by cases h; rfl, fun c s1 h => (by cases h), fun s1 h => (by cases h)⟩
          | ok d =>
            simp only
            cases swapRemoveIf s.trkIns s.insertionData x.idx with
            | error f =>
              exact ⟨fun f h => by cases h; rfl, fun c s1 h => (by cases h), fun s1 h => (by cases h)⟩
            | ok ins =>
              simp only
              cases swapRemoveIf s.trkMod s.modificationData x.idx with
              | error f =>
                exact ⟨fun f h => by cases h; rfl, fun c s1 h => (by cases h), fun s1 h => (by cases h)⟩
              | ok mod =>
                simp only
                cases swapRemove s.data x.idx with
                | error f =>
                  exact ⟨fun f h => by cases h; rfl, fun c s1 h => (by cases h), fun s1 h => (by cases h)⟩
                | ok cd =>
                  simp only
                  cases relink sp d.2 x with
                  | error f =>
                    exact ⟨fun f h => by cases h; rfl, fun c s1 h => (by cases h), fun s1 h => (by cases h)⟩
                  | ok sp2 =>
                    simp only
                    split
                    · refine ⟨fun f h => (by cases h), fun c s1 h => ?_, fun s1 h => (by cases h)⟩
                      cases h
                      split <;> rfl
                    · refine ⟨fun f h => (by cases h), fun c s1 h => (by cases h), fun s1 h => ?_⟩
                      cases h
                      cases dp
                      · exact .inl rfl
                      · exact .inr ⟨rfl, rfl⟩
      · exact ⟨fun f h => (by cases h), fun c s1 h => (by cases h), fun s1 h => (by cases h; exact .inl rfl)⟩

/-- How `remove` ends: it returns as usual, or everything but the log entry was done. -/
theorem dynRemoveU_cases {s s' : SparseSet T} {e : EId} {now : Nat} {hp dp : Bool} {out : Out (Option T)}
    (h : s.dynRemoveU e now hp dp = .ok (out, s')) : ∃ r s1, s.actualRemove e = .ok (r, s1) ∧
      ((out = .returned r ∧ s.dynRemove e now = .ok (r, s')) ∨
       (out = .unwound .hook ∧ r.isSome ∧ s.hookRem = true ∧ hp = true ∧ s' = s1) ∨
       (out = .unwound .dtor ∧ r = none ∧ dp = true ∧ s' = s1)) := by
  obtain ⟨k1, k2, k3⟩ := actualRemoveU_eq s e hp dp
  unfold dynRemoveU at h
  unfold dynRemove
  simp only [bind, Except.bind] at h ⊢
  cases ha : s.actualRemove e with
  | error f => rw [k1 f ha] at h; cases h
  | ok r1 =>
    obtain ⟨o, s1⟩ := r1
    refine ⟨o, s1, rfl, ?_⟩
    cases o with
    | none =>
      rcases k3 s1 ha with k | ⟨hd, k⟩
      · rw [k] at h; cases h; exact .inl ⟨rfl, rfl⟩
      · rw [k] at h; cases h; exact .inr (.inr ⟨rfl, rfl, hd, rfl⟩)
    | some c =>
      rw [k2 c s1 ha] at h
      by_cases hb : (s.hookRem && hp) = true
      · rw [if_pos hb] at h; cases h
        rw [Bool.and_eq_true] at hb
        exact .inr (.inl ⟨rfl, rfl, hb.1, hb.2, rfl⟩)
      · rw [if_neg hb] at h; cases h; exact .inl ⟨rfl, rfl⟩

/-- How `delete` ends: it returns as usual, or `on_removal` panicked when everything but the log entry was
done, or a destructor panicked when everything was done. -/
theorem dynDeleteU_cases {s s' : SparseSet T} {e : EId} {now : Nat} {hp dp : Bool} {out : Out Bool}
    (h : s.dynDeleteU e now hp dp = .ok (out, s')) : ∃ r s1, s.actualRemove e = .ok (r, s1) ∧
      ((out = .returned r.isSome ∧ s.dynDelete e now = .ok (r.isSome, s')) ∨
       (out = .unwound .hook ∧ r.isSome ∧ s.hookRem = true ∧ hp = true ∧ s' = s1) ∨
       (out = .unwound .dtor ∧ dp = true ∧ s.dynDelete e now = .ok (r.isSome, s'))) := by
  obtain ⟨k1, k2, k3⟩ := actualRemoveU_eq s e hp dp
  unfold dynDeleteU at h
  unfold dynDelete
  simp only [bind, Except.bind] at h ⊢
  cases ha : s.actualRemove e with
  | error f => rw [k1 f ha] at h; cases h
  | ok r1 =>
    obtain ⟨o, s1⟩ := r1
    refine ⟨o, s1, rfl, ?_⟩
    cases o with
    | none =>
      rcases k3 s1 ha with k | ⟨hd, k⟩
      · rw [k] at h; cases h; exact .inl ⟨rfl, rfl⟩
      · rw [k] at h; cases h; exact .inr (.inr ⟨rfl, hd, rfl⟩)
    | some c =>
      rw [k2 c s1 ha] at h
      by_cases hb : (s.hookRem && hp) = true
      · rw [if_pos hb] at h; cases h
        rw [Bool.and_eq_true] at hb
        exact .inr (.inl ⟨rfl, rfl, hb.1, hb.2, rfl⟩)
      · rw [if_neg hb] at h
        simp only at h ⊢
        by_cases ht : s1.trkDel = true
        · rw [if_pos ht] at h ⊢; cases h; exact .inl ⟨rfl, rfl⟩
        · rw [if_neg ht] at h ⊢
          by_cases hd : dp = true
          · rw [if_pos hd] at h; cases h; exact .inr (.inr ⟨rfl, hd, rfl⟩)
          · rw [if_neg hd] at h; cases h; exact .inl ⟨rfl, rfl⟩

/-- Removal by an id that exists, or by the dense id of a row, ends without a fault. -/
theorem dynDeleteU_total {s : SparseSet T} {e : EId} {now : Nat} (hp dp : Bool) {r : Option T}
    {s1 : SparseSet T} (ha : s.actualRemove e = .ok (r, s1)) :
    (∃ out s', s.dynDeleteU e now hp dp = .ok (out, s')) ∧
    ∃ out s', s.dynRemoveU e now hp dp = .ok (out, s') := by
  obtain ⟨k1, k2, k3⟩ := actualRemoveU_eq s e hp dp
  have : ∃ out, s.actualRemoveU e hp dp = .ok (out, s1) := by
    cases r with
    | none => rcases k3 s1 ha with k | ⟨_, k⟩ <;> exact ⟨_, k⟩
    | some c => exact ⟨_, k2 c s1 ha⟩
  obtain ⟨out, ho⟩ := this
  unfold dynDeleteU dynRemoveU
  simp only [bind, Except.bind, ho]
  cases out with
  | unwound w => exact ⟨⟨_, _, rfl⟩, ⟨_, _, rfl⟩⟩
  | returned o =>
    refine ⟨?_, ⟨_, _, rfl⟩⟩
    cases o with
    | none => exact ⟨_, _, rfl⟩
    | some c =>
      simp only
      split
      · exact ⟨_, _, rfl⟩
      · split <;> exact ⟨_, _, rfl⟩

theorem clearU_eq (s : SparseSet T) (now : Nat) (dp : Bool) : s.clearU now dp =
    match s.clear now with
    | .ok s' => .ok (if !s.trkDel && dp then .unwound .dtor else .returned (), s')
    | .error f => .error f := by
  unfold clearU clear
  simp only [bind, Except.bind]
  cases killAll s.sparse s.dense with
  | error => rfl
  | ok sp =>
    simp only
    cases s.trkDel <;> cases dp <;> rfl

/-- `apply` with a closure that may panic. -/
theorem applyU_inv {R : Type} {s s' : SparseSet T} {x y : EId} {f : T → T → T × Option R} {now : Nat}
    {out : Out R} (h : s.applyU x y f now = .ok (out, s')) :
    (∃ r, out = .returned r ∧ s.apply x y f now = .ok (some r, s')) ∨
    (out = .unwound .closure ∧ s.apply x y f now = .ok (none, s')) ∨
    (out = .unwound .refused ∧ s.apply x y f now = .error .panic ∧ s' = s) := by
  unfold applyU at h
  unfold apply
  simp only [bind, Except.bind] at h ⊢
  revert h
  cases s.indexOf x with
  | error => intro h; cases h
  | ok o =>
    cases o with
    | none => intro h; cases h; exact .inr (.inr ⟨rfl, rfl, rfl⟩)
    | some i =>
      simp only
      cases s.indexOf y with
      | error => intro h; cases h
      | ok o =>
        cases o with
        | none => intro h; cases h; exact .inr (.inr ⟨rfl, rfl, rfl⟩)
        | some j =>
          simp only
          split
          · cases setCIf s.trkMod s.modificationData i now with
            | error => intro h; cases h
            | ok m =>
              simp only
              cases vecGetU s.data i with
              | error => intro h; cases h
              | ok u =>
                simp only
                cases vecGetU s.data j with
                | error => intro h; cases h
                | ok v =>
                  simp only
                  cases vecSetU s.data i (f u v).1 with
                  | error => intro h; cases h
                  | ok data =>
                    simp only
                    cases (f u v).2 with
                    | none => intro h; cases h; exact .inr (.inl ⟨rfl, rfl⟩)
                    | some r => intro h; cases h; exact .inl ⟨r, rfl, rfl⟩
          · intro h; cases h; exact .inr (.inr ⟨rfl, rfl, rfl⟩)

theorem applyMutU_inv {R : Type} {s s' : SparseSet T} {x y : EId} {f : T → T → T × T × Option R}
    {now : Nat} {out : Out R} (h : s.applyMutU x y f now = .ok (out, s')) :
    (∃ r, out = .returned r ∧ s.applyMut x y f now = .ok (some r, s')) ∨
    (out = .unwound .closure ∧ s.applyMut x y f now = .ok (none, s')) ∨
    (out = .unwound .refused ∧ s.applyMut x y f now = .error .panic ∧ s' = s) := by
  unfold applyMutU at h
  unfold applyMut
  simp only [bind, Except.bind] at h ⊢
  revert h
  cases s.indexOf x with
  | error => intro h; cases h
  | ok o =>
    cases o with
    | none => intro h; cases h; exact .inr (.inr ⟨rfl, rfl, rfl⟩)
    | some i =>
      simp only
      cases s.indexOf y with
      | error => intro h; cases h
      | ok o =>
        cases o with
        | none => intro h; cases h; exact .inr (.inr ⟨rfl, rfl, rfl⟩)
        | some j =>
          simp only
          split
          · cases setCIf s.trkMod s.modificationData i now with
            | error => intro h; cases h
            | ok m =>
              simp only
              cases setCIf s.trkMod m j now with
              | error => intro h; cases h
              | ok m2 =>
                simp only
                cases vecGetU s.data i with
                | error => intro h; cases h
                | ok u =>
                  simp only
                  cases vecGetU s.data j with
                  | error => intro h; cases h
                  | ok v =>
                    simp only
                    cases vecSetU s.data i (f u v).1 with
                    | error => intro h; cases h
                    | ok data =>
                      simp only
                      cases vecSetU data j (f u v).2.1 with
                      | error => intro h; cases h
                      | ok data2 =>
                        simp only
                        cases (f u v).2.2 with
                        | none => intro h; cases h; exact .inr (.inl ⟨rfl, rfl⟩)
                        | some r => intro h; cases h; exact .inl ⟨r, rfl, rfl⟩
          · intro h; cases h; exact .inr (.inr ⟨rfl, rfl, rfl⟩)

/-- `retain` is `retain_mut` with a closure that does not write. -/
theorem retainU_eq_retainMutU {σ : Type} (f : σ → EId → T → Verdict × σ) (now : Nat) (s : SparseSet T)
    (st : σ) : s.retainU now st f =
      s.retainMutU now st (fun st e c => (none, (f st e c).1, (f st e c).2)) := by
  unfold retainU retainMutU
  generalize s.dense.length = n
  generalize 0 = pos
  induction n generalizing s st pos with
  | zero => rfl
  | succ n ih =>
    unfold retainLoopU retainMutLoopU
    simp only [bind, Except.bind, writeOpt]
    cases vecGetU s.dense pos with
    | error => rfl
    | ok e =>
      simp only
      cases vecGetU s.data pos with
      | error => rfl
      | ok c =>
        simp only
        cases (f st e c).1 with
        | keep => exact ih s _ (pos + 1)
        | panic => rfl
        | drop hp dp =>
          simp only
          cases s.dynDeleteU e now hp dp with
          | error => rfl
          | ok r =>
            obtain ⟨out, s'⟩ := r
            cases out with
            | unwound w => rfl
            | returned b => exact ih _ _ _

/-! ## Insertion -/

/-- An insertion that unwinds leaves the rows as they were, or one component replaced. -/
theorem abs_insertU' {P : Prop} {s s' : SparseSet T} {a : Sto T} {L : List (Cell T)} (h : Abs P s a L)
    {e : EId} {v : T} {now : Nat} {hp dp : Bool} {w : Where} (he : Valid e)
    (hs : s.insertU e v now hp dp = .ok (.unwound w, s')) :
    (w = .hook ∨ (w = .dtor ∧ ∃ r, a.rows e.idx = some r ∧ r.gen < e.gen)) ∧
      ∃ L', Abs P s' (StoSpec.cutStep a (.insert e v w)) L' := by
  have hd : e.isDead = false := by unfold EId.isDead; simp; have := he.1; omega
  obtain ⟨sp1, ha, hw1, hl1, hh1⟩ := SparseArray.allocateAt_look h.ok.wfa hd
  have hok1 : SOK sp1 L :=
    ⟨hw1, fun i c hi => by rw [hl1]; exact h.ok.hit i c hi,
      fun j hj => by rw [hl1]; exact h.ok.miss j hj, h.ok.cells⟩
  have hpage : has sp1 (e.idx / BUCKET_SIZE) := (hh1 _).2 (.inr rfl)
  have hget := SparseArray.getU_look hw1 hpage
  -- the callback alone
  have hook : StoSpec.accepts a e = true →
      Abs P (build (s.callIns e v) sp1 L) (StoSpec.cutStep a (.insert e v .hook)) L := by
    intro hacc
    rw [callIns_eq]
    refine h.of_build hok1 h.rows h.clean id ⟨rfl, rfl⟩ ⟨rfl, rfl⟩ ⟨rfl, rfl⟩ ⟨rfl, rfl⟩ ⟨rfl, rfl⟩
      ⟨rfl, rfl⟩ ⟨rfl, rfl⟩ ⟨rfl, rfl⟩ ?_ h.removed h.deleted h.remCalls
    show (if s.hookIns then _ else _) = if a.hookIns && StoSpec.accepts a e then _ else _
    rw [hacc, h.hookIns, h.insCalls, Bool.and_true]
  rw [h.shape] at hs
  unfold insertU at hs
  simp only [build_sparse, ha, hget, bind, Except.bind, setSparse_build, callIns_build] at hs
  rcases hok1.cases e.idx with ⟨hne, hl⟩ | ⟨i, c, hi, hce, hl⟩
  · have hdead : (look sp1 e.idx).isDead = true := by unfold EId.isDead; rw [hl]; rfl
    rw [if_pos hdead] at hs
    have hacc : StoSpec.accepts a e = true := by
      unfold StoSpec.accepts; rw [h.rows, cellAt_none.2 hne]; rfl
    by_cases hb : ((build (s.callIns e v) sp1 L).hookIns && hp) = true
    · rw [if_pos hb] at hs
      cases hs
      exact ⟨.inl rfl, L, hook hacc⟩
    · rw [if_neg hb] at hs
      exfalso
      revert hs
      cases EId.fromParts (build (s.callIns e v) sp1 L).dense.length e.gen with
      | error => intro hs; cases hs
      | ok x' =>
        simp only
        cases sp1.setU e x' with
        | error => intro hs; cases hs
        | ok sp2 => intro hs; cases hs
  · have hcell := hok1.cells c (List.mem_of_getElem? hi)
    have hdead : (look sp1 e.idx).isDead = false := by
      unfold EId.isDead; rw [hl]; simp; omega
    have hrow : a.rows e.idx = some c.toRow := by rw [h.rows, ← hce, cellAt_mem h.ok hi]; rfl
    rw [if_neg (by rw [hdead]; decide), hl] at hs
    simp only at hs
    by_cases heq : e.gen = c.gen
    · have hacc : StoSpec.accepts a e = true := by
        unfold StoSpec.accepts; rw [hrow]; show decide (c.gen ≤ e.gen) = true; simp [heq]
      rw [if_pos heq] at hs
      by_cases hb : ((build (s.callIns e v) sp1 L).hookIns && hp) = true
      · rw [if_pos hb] at hs
        cases hs
        exact ⟨.inl rfl, L, hook hacc⟩
      · rw [if_neg hb] at hs
        exfalso
        revert hs
        cases vecGetU (build (s.callIns e v) sp1 L).data i with
        | error => intro h; cases h
        | ok old =>
          simp only
          cases vecSetU (build (s.callIns e v) sp1 L).data i v with
          | error => intro h; cases h
          | ok data =>
            simp only
            cases sp1.setU e (EId.copyGen ⟨i, c.gen⟩ e) with
            | error => intro h; cases h
            | ok sp2 =>
              simp only
              cases vecGetU (build (s.callIns e v) sp1 L).dense i with
              | error => intro h; cases h
              | ok d =>
                simp only
                cases setUIf (build (s.callIns e v) sp1 L).trkMod
                    (build (s.callIns e v) sp1 L).modificationData i now with
                | error => intro h; cases h
                | ok m =>
                  simp only
                  cases vecSetU (build (s.callIns e v) sp1 L).dense i (d.copyIndexGen e) with
                  | error => intro h; cases h
                  | ok dn => intro h; cases h
    · rw [if_neg heq] at hs
      by_cases hgt : e.gen > c.gen
      · have hacc : StoSpec.accepts a e = true := by
          unfold StoSpec.accepts; rw [hrow]; show decide (c.gen ≤ e.gen) = true; simp; omega
        rw [if_pos hgt] at hs
        by_cases hb : ((build (s.callIns e v) sp1 L).hookIns && hp) = true
        · rw [if_pos hb] at hs
          cases hs
          exact ⟨.inl rfl, L, hook hacc⟩
        · rw [if_neg hb] at hs
          rw [build_data, vecSetU_map (fun x => x.val) hi { c with val := v } rfl] at hs
          simp only at hs
          by_cases hdp : dp = true
          · rw [if_pos hdp] at hs
            have hst : { build (s.callIns e v) sp1 L with
                data := (L.set i { c with val := v }).map (fun x => x.val) } =
                build (s.callIns e v) sp1 (L.set i { c with val := v }) := by
              unfold build
              simp only
              rw [map_set_same (fun x => x.id) hi (d := { c with val := v }) rfl,
                map_set_same (fun x => x.ins) hi (d := { c with val := v }) rfl,
                map_set_same (fun x => x.mod) hi (d := { c with val := v }) rfl]
            injection hs with hs
            injection hs with hw hs
            injection hw with hw
            subst hw
            have hs := hst.symm.trans hs
            subst hs
            refine ⟨.inr ⟨rfl, _, hrow, hgt⟩, L.set i { c with val := v }, ?_⟩
            have hok2 : SOK sp1 (L.set i { c with val := v }) := hok1.write hi rfl rfl
            rw [callIns_eq]
            refine h.of_build hok2 ?_ ?_ id ⟨rfl, rfl⟩ ⟨rfl, rfl⟩ ⟨rfl, rfl⟩ ⟨rfl, rfl⟩ ⟨rfl, rfl⟩
              ⟨rfl, rfl⟩ ⟨rfl, rfl⟩ ⟨rfl, rfl⟩ ?_ h.removed h.deleted h.remCalls
            · intro j
              show StoSpec.setRow a.rows e.idx ((a.rows e.idx).map _) j = _
              rw [cellAt_set hok1 hi (d := { c with val := v }) rfl hok2, hce, hrow]
              unfold StoSpec.setRow
              split
              · rfl
              · exact h.rows j
            · intro p x hx
              rw [mem_set hok1 hi] at hx
              rcases hx with rfl | hx
              · exact h.clean p c (List.mem_of_getElem? hi)
              · exact h.clean p x hx.1
            · show (if s.hookIns then _ else _) = if a.hookIns && StoSpec.accepts a e then _ else _
              rw [hacc, h.hookIns, h.insCalls, Bool.and_true]
          · rw [if_neg hdp] at hs
            exfalso
            revert hs
            cases sp1.setU e (EId.copyGen ⟨i, c.gen⟩ e) with
            | error => intro h; cases h
            | ok sp2 =>
              simp only
              cases vecGetU (build (s.callIns e v) sp1 L).dense i with
              | error => intro h; cases h
              | ok d =>
                simp only
                cases setUIf (build (s.callIns e v) sp1 L).trkIns
                    (build (s.callIns e v) sp1 L).insertionData i now with
                | error => intro h; cases h
                | ok m =>
                  simp only
                  cases vecSetU (build (s.callIns e v) sp1 L).dense i (d.copyIndexGen e) with
                  | error => intro h; cases h
                  | ok dn => intro h; cases h
      · rw [if_neg hgt] at hs; cases hs

theorem abs_insertU {P : Prop} {s s' : SparseSet T} {a : Sto T} {L : List (Cell T)} (h : Abs P s a L)
    {e : EId} {v : T} {now : Nat} {hp dp : Bool} {w : Where} (he : Valid e)
    (hs : s.insertU e v now hp dp = .ok (.unwound w, s')) :
    (w = .hook ∨ w = .dtor) ∧ ∃ L', Abs P s' (StoSpec.cutStep a (.insert e v w)) L' := by
  obtain ⟨h1, h2⟩ := abs_insertU' h he hs
  exact ⟨h1.imp id (·.1), h2⟩

/-! ## Removal -/

/-- `actual_remove`: the component is gone and the callback was told. -/
theorem abs_silently {P : Prop} {s s1 : SparseSet T} {a : Sto T} {L : List (Cell T)} (h : Abs P s a L)
    {e : EId} {r : Option T} (he : Valid e) (hs : s.actualRemove e = .ok (r, s1)) :
    r = StoSpec.lookup a.rows e ∧ ∃ L', Abs P s1 (StoSpec.removedSilently a e r) L' := by
  obtain ⟨r', sp', L', h1, h2, h3⟩ := actualRemove_ok (s := s) h.ok (.inl he.1)
  rw [h.shape, h1] at hs
  injection hs with hs
  injection hs with hr hs
  subst hr; subst hs
  obtain ⟨hrows, hsub, hl⟩ := removeRow_rows h h2 h3
  refine ⟨hl, L', ?_⟩
  cases r' with
  | none => exact h.vectors h2 hrows (fun p c hc => h.clean p c (hsub c hc)) id
  | some v =>
    simp only
    rw [callRem_eq]
    refine h.of_build h2 hrows (fun p c hc => h.clean p c (hsub c hc)) id ⟨rfl, rfl⟩ ⟨rfl, rfl⟩
      ⟨rfl, rfl⟩ ⟨rfl, rfl⟩ ⟨rfl, rfl⟩ ⟨rfl, rfl⟩ ⟨rfl, rfl⟩ ⟨rfl, rfl⟩ h.insCalls h.removed
      h.deleted (fun p => ?_)
    show (if s.hookRem then _ else _) = if a.hookRem then _ else _
    rw [h.hookRem, h.remCalls p]

/-! ## Retain -/

/-- The state after the row of `e`, holding `v`, was deleted. -/
def goneRow (a : Sto T) (now : Nat) (e : EId) (v : T) (logged : Bool) : Sto T :=
  { a with
    rows := StoSpec.setRow a.rows e.idx none
    deleted := if logged && a.trkDel then a.deleted ++ [(e, now, v)] else a.deleted
    remCalls := if a.hookRem then a.remCalls ++ [(e, v)] else a.remCalls }

theorem retained_keep (a : Sto T) (now : Nat) (e : EId) (g : T) (w : Option T) :
    StoSpec.step a (.retained now [⟨e, g, w, true⟩]) =
      match w with
      | some v => StoSpec.step a (.wrote [(e, v)] now)
      | none => a := by
  cases w with
  | none =>
    cases a
    unfold StoSpec.step
    simp only [StoSpec.rejected]
    congr 1
    · funext j
      rw [List.find?_cons]
      split
      · rename_i h1
        split at h1
        · cases h1; rfl
        · cases h1
      · rfl
    · simp
    · simp
  | some v =>
    cases a
    unfold StoSpec.step
    simp only [StoSpec.rejected]
    congr 1
    · funext j
      rw [List.find?_cons]
      simp only [StoSpec.writeRows]
      unfold StoSpec.setRow
      by_cases hj : j = e.idx
      · rw [if_pos hj]
        simp only [hj, beq_self_eq_true]
        rfl
      · rw [if_neg hj]
        have : (e.idx == j) = false := by simpa using fun hh : e.idx = j => hj hh.symm
        simp only [this]
        rfl
    · simp
    · simp

theorem retained_drop (a : Sto T) (now : Nat) (e : EId) (g : T) (w : Option T) :
    StoSpec.step a (.retained now [⟨e, g, w, false⟩]) = goneRow a now e (w.getD g) true := by
  unfold StoSpec.step goneRow
  simp only [StoSpec.rejected, Bool.true_and]
  congr 1
  funext j
  rw [List.find?_cons]
  unfold StoSpec.setRow
  by_cases hj : j = e.idx
  · rw [if_pos hj]
    simp only [hj, beq_self_eq_true]
    rfl
  · rw [if_neg hj]
    have : (e.idx == j) = false := by simpa using fun hh : e.idx = j => hj hh.symm
    simp only [this]
    rfl

/-- The write of one call of the closure. -/
theorem abs_writeOpt {P : Prop} {s : SparseSet T} {a : Sto T} {L : List (Cell T)} (h : Abs P s a L)
    {i : Nat} {c : Cell T} (hi : L[i]? = some c) (now : Nat) (w : Option T) :
    Abs P (build s s.sparse (L.set i (c.writeOpt s.trkMod now w)))
      (StoSpec.step a (.retained now [⟨c.id, c.val, w, true⟩])) (L.set i (c.writeOpt s.trkMod now w)) := by
  rw [retained_keep]
  cases w with
  | none =>
    simp only [Cell.writeOpt]
    rw [set_self hi, ← h.shape]
    exact h
  | some v => exact abs_write h hi rfl now v id

/-- Deleting a row by its dense id. -/
theorem abs_goneRow {P : Prop} {s s' : SparseSet T} {a : Sto T} {L : List (Cell T)} (h : Abs P s a L)
    {i : Nat} {c : Cell T} (hi : L[i]? = some c) {now : Nat} {hp dp : Bool} {out : Out Bool}
    (hs : s.dynDeleteU c.id now hp dp = .ok (out, s')) :
    ((∃ b, out = .returned b) ∧ Abs P s' (goneRow a now c.id c.val true) (swapDel L i)) ∨
    (out = .unwound .hook ∧ Abs P s' (goneRow a now c.id c.val false) (swapDel L i)) ∨
    (out = .unwound .dtor ∧ Abs P s' (goneRow a now c.id c.val true) (swapDel L i)) := by
  have hm := List.mem_of_getElem? hi
  have hle := (h.ok.cells c hm).2.1
  have hrows : ∀ {sp' : SparseArray}, SOK sp' (swapDel L i) → ∀ j : Nat,
      StoSpec.setRow a.rows c.id.idx none j = (cellAt (swapDel L i) j).map Cell.toRow := by
    intro sp' h2 j
    rw [cellAt_swapDel h.ok hi h2]
    unfold StoSpec.setRow
    split
    · rfl
    · exact h.rows j
  have hclean : P → ∀ x ∈ swapDel L i, x.gen = x.id.gen := fun p x hx =>
    h.clean p x ((swapDel_mem h.ok hi x).1 hx).1
  -- everything was done
  have hfull : ∀ b, s.dynDelete c.id now = .ok (b, s') →
      Abs P s' (goneRow a now c.id c.val true) (swapDel L i) := by
    intro b hb
    obtain ⟨sp', h1, h2⟩ := deleteRow_ok (s := s) h.ok hi now
    rw [h.shape, h1] at hb
    injection hb with hb
    injection hb with _ hb
    subst hb
    by_cases hg : c.gen = c.id.gen
    · rw [if_pos hg, noteDel_eq]
      refine h.of_build h2 (hrows h2) hclean id ⟨rfl, rfl⟩ ⟨rfl, rfl⟩
        ⟨rfl, rfl⟩ ⟨rfl, rfl⟩ ⟨rfl, rfl⟩ ⟨rfl, rfl⟩ ⟨rfl, rfl⟩ ⟨rfl, rfl⟩ h.insCalls h.removed
        (fun p => ?_) (fun p => ?_)
      · show (if s.trkDel then _ else _) = if true && a.trkDel then _ else _
        rw [h.trkDel, h.deleted p, Bool.true_and]
      · show (if s.hookRem then _ else _) = if a.hookRem then _ else _
        rw [h.hookRem, h.remCalls p]
    · rw [if_neg hg]
      refine h.of_build h2 (hrows h2) hclean id ⟨rfl, rfl⟩ ⟨rfl, rfl⟩
        ⟨rfl, rfl⟩ ⟨rfl, rfl⟩ ⟨rfl, rfl⟩ ⟨rfl, rfl⟩ ⟨rfl, rfl⟩ ⟨rfl, rfl⟩ h.insCalls h.removed
        (fun p => absurd (h.clean p c hm) hg) (fun p => absurd (h.clean p c hm) hg)
  obtain ⟨r, s1, ha, k⟩ := dynDeleteU_cases hs
  rcases k with ⟨ho, hd⟩ | ⟨ho, hr, _, _, hs1⟩ | ⟨ho, _, hd⟩
  · exact .inl ⟨⟨_, ho⟩, hfull _ hd⟩
  · refine .inr (.inl ⟨ho, ?_⟩)
    subst hs1
    obtain ⟨r', sp', L', h1, h2, h3⟩ := actualRemove_ok (s := s) h.ok (.inr ⟨c, hm, rfl⟩)
    rw [h.shape, h1] at ha
    injection ha with ha
    injection ha with hr' ha
    subst hr'; subst ha
    cases h3 with
    | absent hn => cases hr
    | stale hj he hg => cases hr
    | found hj he hg =>
      obtain ⟨rfl, rfl⟩ := h.ok.inj hi hj he.symm
      simp only
      rw [callRem_eq]
      refine h.of_build h2 (hrows h2) hclean id ⟨rfl, rfl⟩ ⟨rfl, rfl⟩
        ⟨rfl, rfl⟩ ⟨rfl, rfl⟩ ⟨rfl, rfl⟩ ⟨rfl, rfl⟩ ⟨rfl, rfl⟩ ⟨rfl, rfl⟩ h.insCalls h.removed
        (fun p => h.deleted p) (fun p => ?_)
      show (if s.hookRem then _ else _) = if a.hookRem then _ else _
      rw [h.hookRem, h.remCalls p]
  · exact .inr (.inr ⟨ho, hfull _ hd⟩)

theorem goneRow_writeOpt (a : Sto T) (now : Nat) (e : EId) (g : T) (w : Option T) (b : Bool) :
    goneRow (StoSpec.step a (.retained now [⟨e, g, w, true⟩])) now e (w.getD g) b =
      goneRow a now e (w.getD g) b := by
  rw [retained_keep]
  cases w with
  | none => rfl
  | some v =>
    unfold goneRow StoSpec.step
    simp only [StoSpec.writeRows]
    congr 1
    funext j
    unfold StoSpec.setRow
    split <;> rfl

/-- The loop of `retain_mut`: when it is interrupted, the calls so far were carried out. -/
theorem abs_retainLoopU {P : Prop} {σ : Type} (f : σ → EId → T → Option T × Verdict × σ) (now : Nat) :
    ∀ (n : Nat) (s : SparseSet T) (a : Sto T) (L : List (Cell T)) (st : σ) (acc : List (Call T))
      (pos : Nat), Abs P s a L → pos + n = L.length →
      ∃ out st' new s', retainMutLoopU (StoSpec.recordingU f) now s (st, acc) pos n =
          .ok (out, (st', acc ++ new), s') ∧
        (∃ order : List (Cell T), order.Perm (L.drop pos) ∧
          new.map (fun c => (c.id, c.given)) <+: order.map (fun c => (c.id, c.val))) ∧
        ((out = .returned () ∧ ∃ L', Abs P s' (StoSpec.retainedAll a now new) L') ∨
         (∃ w calls last, out = .unwound w ∧ new = calls ++ [last] ∧ last.keep = (w == .closure) ∧
           ∃ L', Abs P s' (StoSpec.cutStep a (.retain now calls last w)) L')) := by
  intro n
  induction n with
  | zero =>
    intro s a L st acc pos h hn
    exact ⟨_, st, [], s, by rw [List.append_nil]; rfl,
      ⟨L.drop pos, List.Perm.refl _, List.nil_prefix⟩, .inl ⟨rfl, L, h⟩⟩
  | succ n ih =>
    intro s a L st acc pos h hn
    obtain ⟨c, hc⟩ : ∃ c, L[pos]? = some c := ⟨_, List.getElem?_eq_getElem (by omega)⟩
    unfold retainMutLoopU
    have hdense : vecGetU s.dense pos = .ok c.id := by
      rw [h.shape, build_dense]; exact vecGetU_map (fun x => x.id) hc
    have hdata : vecGetU s.data pos = .ok c.val := by
      rw [h.shape, build_data]; exact vecGetU_map (fun x => x.val) hc
    simp only [hdense, hdata, bind, Except.bind]
    generalize hf : f st c.id c.val = r
    obtain ⟨w, vd, st1⟩ := r
    have hrec : StoSpec.recordingU f (st, acc) c.id c.val =
        (w, vd, (st1, acc ++ [⟨c.id, c.val, w, StoSpec.Verdict.stays vd⟩])) := by
      unfold StoSpec.recordingU; simp only [hf]
    simp only [hrec]
    obtain ⟨hw, _⟩ := writeOpt_ok (s := s) h.ok hc now w
    rw [← h.shape] at hw
    rw [hw]
    simp only
    have h1 := abs_writeOpt h hc now w
    generalize hd : c.writeOpt s.trkMod now w = d at h1
    have hdid : d.id = c.id := by subst hd; cases w <;> rfl
    have hdval : d.val = w.getD c.val := by subst hd; cases w <;> rfl
    have hdpos : (L.set pos d)[pos]? = some d := List.getElem?_set_self (by omega)
    have hdrop : L.drop pos = c :: L.drop (pos + 1) := by
      rw [List.drop_eq_getElem_cons (by omega)]
      rw [List.getElem?_eq_getElem (by omega)] at hc
      injection hc with hc
      rw [hc]
    have hd1 : (L.set pos d).drop (pos + 1) = L.drop (pos + 1) := by
      rw [List.drop_set_of_lt (by omega)]
    have hone : ∀ k : Bool, ∃ order : List (Cell T), order.Perm (L.drop pos) ∧
        [(⟨c.id, c.val, w, k⟩ : Call T)].map (fun c => (c.id, c.given)) <+:
          order.map (fun c => (c.id, c.val)) := by
      intro k
      refine ⟨L.drop pos, List.Perm.refl _, ?_⟩
      rw [hdrop]
      exact ⟨(L.drop (pos + 1)).map fun c => (c.id, c.val), rfl⟩
    have hmore : ∀ (k : Bool) (new : List (Call T)) (M : List (Cell T)),
        M.Perm (L.drop (pos + 1)) →
        (∃ order : List (Cell T), order.Perm M ∧
          new.map (fun c => (c.id, c.given)) <+: order.map (fun c => (c.id, c.val))) →
        ∃ order : List (Cell T), order.Perm (L.drop pos) ∧
          ((⟨c.id, c.val, w, k⟩ : Call T) :: new).map (fun c => (c.id, c.given)) <+:
            order.map (fun c => (c.id, c.val)) := by
      rintro k new M hM ⟨order, o1, o2⟩
      refine ⟨c :: order, ?_, ?_⟩
      · rw [hdrop]; exact (o1.trans hM).cons c
      · rw [List.map_cons, List.map_cons]
        exact List.cons_prefix_cons.2 ⟨rfl, o2⟩
    cases vd with
    | panic =>
      refine ⟨_, st1, [_], _, rfl, hone _, .inr ⟨.closure, [], _, rfl, rfl, rfl, L.set pos d, ?_⟩⟩
      exact h1
    | keep =>
      simp only
      obtain ⟨out, st', new, s', e1, e0, e2⟩ := ih _ _ _ st1
        (acc ++ [⟨c.id, c.val, w, true⟩]) (pos + 1) h1 (by simp; omega)
      refine ⟨out, st', ⟨c.id, c.val, w, true⟩ :: new, s', ?_,
        hmore true new _ (by rw [hd1]) e0, ?_⟩
      · rw [show acc ++ (⟨c.id, c.val, w, true⟩ :: new) = (acc ++ [⟨c.id, c.val, w, true⟩]) ++ new by simp]
        exact e1
      · rcases e2 with ⟨ho, L', hL'⟩ | ⟨wh, calls, last, ho, hnew, hk, L', hL'⟩
        · exact .inl ⟨ho, L', hL'⟩
        · refine .inr ⟨wh, ⟨c.id, c.val, w, true⟩ :: calls, last, ho, by rw [hnew]; rfl, hk, L', ?_⟩
          cases wh <;> exact hL'
    | drop hp dp =>
      have hm : ∃ x ∈ L.set pos d, x.id.idx = c.id.idx := ⟨d, List.mem_of_getElem? hdpos, by rw [hdid]⟩
      obtain ⟨r', sp', L', h1', _, _⟩ := actualRemove_ok (s := s) h1.ok (.inr hm)
      obtain ⟨⟨out, s', hdel⟩, _⟩ := dynDeleteU_total (now := now) hp dp h1'
      change dynDeleteU (build s s.sparse (L.set pos d)) c.id now hp dp = _ at hdel
      simp only [hdel]
      rw [← hdid] at hdel
      have hgone := abs_goneRow h1 hdpos hdel
      rw [hdid, hdval, goneRow_writeOpt, goneRow_writeOpt] at hgone
      rcases hgone with ⟨⟨b, ho⟩, hA⟩ | ⟨ho, hA⟩ | ⟨ho, hA⟩
      · subst ho
        simp only
        rw [← retained_drop] at hA
        obtain ⟨out, st', new, s', e1, e0, e2⟩ := ih _ _ _ st1
          (acc ++ [⟨c.id, c.val, w, false⟩]) pos hA (by rw [swapDel_length hdpos]; simp; omega)
        refine ⟨out, st', ⟨c.id, c.val, w, false⟩ :: new, s', ?_,
          hmore false new _ ((drop_swapDel hdpos).1.trans (by rw [hd1])) e0, ?_⟩
        · rw [show acc ++ (⟨c.id, c.val, w, false⟩ :: new) =
            (acc ++ [⟨c.id, c.val, w, false⟩]) ++ new by simp]
          exact e1
        · rcases e2 with ⟨ho, L', hL'⟩ | ⟨wh, calls, last, ho, hnew, hk, L', hL'⟩
          · exact .inl ⟨ho, L', hL'⟩
          · refine .inr ⟨wh, ⟨c.id, c.val, w, false⟩ :: calls, last, ho, by rw [hnew]; rfl, hk, L', ?_⟩
            cases wh <;> exact hL'
      · subst ho
        simp only
        refine ⟨_, st1, [_], _, rfl, hone _, .inr ⟨.hook, [], _, rfl, rfl, rfl,
          swapDel (L.set pos d) pos, ?_⟩⟩
        unfold StoSpec.cutStep StoSpec.retainedAll
        simp only [List.foldl_nil, StoSpec.Verdict.stays]
        rw [retained_drop]
        exact hA
      · subst ho
        simp only
        refine ⟨_, st1, [_], _, rfl, hone _, .inr ⟨.dtor, [], _, rfl, rfl, rfl,
          swapDel (L.set pos d) pos, ?_⟩⟩
        unfold StoSpec.cutStep StoSpec.retainedAll
        simp only [List.nil_append, List.foldl_cons, List.foldl_nil, StoSpec.Verdict.stays]
        rw [retained_drop]
        exact hA

theorem abs_retainMutU {P : Prop} {s s' : SparseSet T} {a : Sto T} {L : List (Cell T)} (h : Abs P s a L)
    {σ : Type} {st st' : σ} {f : σ → EId → T → Option T × Verdict × σ} {now : Nat}
    {calls : List (Call T)} {last : Call T} {w : Where}
    (hs : s.retainMutU now (st, []) (StoSpec.recordingU f) = .ok (.unwound w, (st', calls ++ [last]), s')) :
    (∃ order : List (Cell T), order.Perm L ∧
      (calls ++ [last]).map (fun c => (c.id, c.given)) <+: order.map (fun c => (c.id, c.val))) ∧
    last.keep = (w == .closure) ∧
    ∃ L', Abs P s' (StoSpec.cutStep a (.retain now calls last w)) L' := by
  have hlen : s.dense.length = L.length := by rw [h.shape]; simp
  obtain ⟨out, st1, new, s1, h1, h0, h2⟩ := abs_retainLoopU f now L.length s a L st [] 0 h (by simp)
  unfold retainMutU at hs
  rw [hlen, h1] at hs
  injection hs with hs
  injection hs with ho hs
  injection hs with hst hs
  injection hst with _ hcalls
  subst ho; subst hs
  rcases h2 with ⟨ho, _⟩ | ⟨w', calls', last', ho, hnew, hk, hL'⟩
  · cases ho
  · cases ho
    rw [List.nil_append, hnew] at hcalls
    obtain ⟨e1, e2⟩ := List.append_inj' hcalls rfl
    cases e2
    subst e1
    rw [hnew, List.drop_zero] at h0
    exact ⟨h0, hk, hL'⟩

/-! ## All steps -/

theorem abs_pstep {P Q : Prop} {s s' : SparseSet T} {a : Sto T} {L : List (Cell T)} {ev : PEvent T}
    (h : Abs P s a L) (hs : PStep s ev s') (hQ : Q → P)
    (hev : Q → ∀ e v now, ev ≠ .done (.inserted e v now .otherComponentOverride)) :
    ∃ L', Abs Q s' (StoSpec.pstep a ev) L' := by
  have h : Abs Q s a L :=
    { h with
      clean := fun q => h.clean (hQ q)
      deleted := fun q => h.deleted (hQ q)
      remCalls := fun q => h.remCalls (hQ q) }
  cases hs with
  | done hs => exact abs_step h hs id (fun q e v now he => hev q e v now (by rw [he]))
  | insert he hi => exact (abs_insertU h he hi).2
  | @remove e now hp dp c w _ he hg hr =>
    obtain ⟨r, s1, ha, k⟩ := dynRemoveU_cases hr
    obtain ⟨hl, L', hL'⟩ := abs_silently h he ha
    rw [h.get he.1, ← hl] at hg
    cases hg
    rcases k with ⟨ho, _⟩ | ⟨ho, _, _, _, hs1⟩ | ⟨ho, _, _, hs1⟩
    · cases ho
    · subst hs1; cases ho; exact ⟨L', hL'⟩
    · subst hs1; cases ho; exact ⟨L', hL'⟩
  | @delete e now hp dp c w _ he hg hr =>
    obtain ⟨r, s1, ha, k⟩ := dynDeleteU_cases hr
    rcases k with ⟨ho, _⟩ | ⟨ho, _, _, _, hs1⟩ | ⟨ho, _, hd⟩
    · cases ho
    · obtain ⟨hl, L', hL'⟩ := abs_silently h he ha
      rw [h.get he.1, ← hl] at hg
      cases hg
      subst hs1; cases ho; exact ⟨L', hL'⟩
    · cases ho
      exact (abs_delete h he hg hd id).2
  | @apply x y now u v _ R g hx hy hu hv hw =>
    rcases applyU_inv hw with ⟨r, ho, _⟩ | ⟨_, hw⟩ | ⟨ho, _⟩
    · cases ho
    · rw [h.shape] at hw
      obtain ⟨i, j, c, d, hi, hj, hij, hce, hcg, hde, hdg, hr, hs'⟩ := apply_inv h.ok hx.1 hy.1 hw
      subst hs'
      have e1 : u = c.val := by
        rw [h.get hx.1] at hu
        unfold StoSpec.lookup at hu
        rw [h.rows, ← hce, cellAt_mem h.ok hi] at hu
        change Except.ok (if c.gen = x.gen then some c.val else none) = _ at hu
        rw [if_pos hcg] at hu
        cases hu; rfl
      have e2 : v = d.val := by
        rw [h.get hy.1] at hv
        unfold StoSpec.lookup at hv
        rw [h.rows, ← hde, cellAt_mem h.ok hj] at hv
        change Except.ok (if d.gen = y.gen then some d.val else none) = _ at hv
        rw [if_pos hdg] at hv
        cases hv; rfl
      subst e1; subst e2
      exact ⟨_, abs_write h hi hce _ _ id⟩
    · cases ho
  | @applyMut x y now u v _ R g hx hy hu hv hw =>
    rcases applyMutU_inv hw with ⟨r, ho, _⟩ | ⟨_, hw⟩ | ⟨ho, _⟩
    · cases ho
    · rw [h.shape] at hw
      obtain ⟨i, j, c, d, hi, hj, hij, hce, hcg, hde, hdg, hr, hs'⟩ := applyMut_inv h.ok hx.1 hy.1 hw
      subst hs'
      have e1 : u = c.val := by
        rw [h.get hx.1] at hu
        unfold StoSpec.lookup at hu
        rw [h.rows, ← hce, cellAt_mem h.ok hi] at hu
        change Except.ok (if c.gen = x.gen then some c.val else none) = _ at hu
        rw [if_pos hcg] at hu
        cases hu; rfl
      have e2 : v = d.val := by
        rw [h.get hy.1] at hv
        unfold StoSpec.lookup at hv
        rw [h.rows, ← hde, cellAt_mem h.ok hj] at hv
        change Except.ok (if d.gen = y.gen then some d.val else none) = _ at hv
        rw [if_pos hdg] at hv
        cases hv; rfl
      subst e1; subst e2
      have h1 := abs_write h hi hce now (g c.val d.val).1 id
      have hj1 : (L.set i (c.write s.trkMod now (g c.val d.val).1))[j]? = some d := by
        rw [List.getElem?_set_ne hij]; exact hj
      exact ⟨_, abs_write h1 hj1 hde now (g c.val d.val).2 id⟩
    · cases ho
  | refused hx hy hw =>
    rcases applyU_inv hw with ⟨r, ho, _⟩ | ⟨ho, _⟩ | ⟨_, _, hs'⟩
    · cases ho
    · cases ho
    · subst hs'; exact ⟨L, h⟩
  | refusedMut hx hy hw =>
    rcases applyMutU_inv hw with ⟨r, ho, _⟩ | ⟨ho, _⟩ | ⟨_, _, hs'⟩
    · cases ho
    · cases ho
    · subst hs'; exact ⟨L, h⟩
  | @sort perm _ hw =>
    cases perm with
    | none => cases hw; exact ⟨L, h⟩
    | some perm =>
      unfold sortU at hw
      simp only [bind, Except.bind] at hw
      split at hw <;> cases hw
  | @clear now dp w _ hw =>
    rw [clearU_eq] at hw
    cases hc : s.clear now with
    | error => rw [hc] at hw; cases hw
    | ok s1 =>
      rw [hc] at hw
      simp only at hw
      injection hw with hw
      injection hw with _ hw
      subst hw
      exact abs_step h (Step.clear hc) id (fun _ _ _ _ hh => by cases hh)
  | @retain now w calls last _ σ st st' f hw =>
    rw [retainU_eq_retainMutU] at hw
    exact (abs_retainMutU (f := fun st e c => (none, (f st e c).1, (f st e c).2)) h hw).2.2
  | retainMut hw => exact (abs_retainMutU h hw).2.2

/-- Every execution, panics included, refines the specification. -/
theorem prun_abs {a b c d : Bool} {h : List (PEvent T)} {s : SparseSet T}
    (hr : PRun (SparseSet.new a b c d) h s) :
    ∃ L, Abs (StoSpec.PNoTakeover h) s (StoSpec.pafter (Sto.init a b c d) h) L := by
  induction hr with
  | nil =>
    refine ⟨[], ?_⟩
    have := abs_new (T := T) a b c d
    exact { this with clean := fun _ => this.clean trivial, deleted := fun _ => rfl, remCalls := fun _ => rfl }
  | @snoc h s ev s' _ hs ih =>
    obtain ⟨L, hL⟩ := ih
    obtain ⟨L', hL'⟩ := abs_pstep (Q := StoSpec.PNoTakeover (h ++ [ev])) hL hs
      (fun q e v now hm => q e v now (List.mem_append.2 (.inl hm)))
      (fun q e v now he => q e v now (List.mem_append.2 (.inr (by rw [he]; simp))))
    refine ⟨L', ?_⟩
    unfold StoSpec.pafter at hL' ⊢
    rw [List.foldl_append]
    exact hL'

end Verif.SparseSet
