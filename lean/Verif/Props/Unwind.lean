import Verif.Lemmas.Unwind
import Verif.Props.SparseSet2

/-!
# C72: a panic in user code leaves storages usable

`PRun (SparseSet.new ..) h s` are the executions in which any call may have ended because a callback, a
closure, a comparator or a destructor panicked (`Verif/Spec/Unwind.lean`); `pafter .. h` is what the
specification says about them.
-/
namespace Verif.SparseSet
open StoSpec
variable {T : Type}

/-! ## What is left behind -/

/-- C72. After any history of calls, each finished or unwound out of user code, every handle reads what
the specification holds for it, with its timestamps; the log of removals and the calls of `on_insertion`
are those of the specification; and, as long as no insertion took over the row of an older entity, so are
the log of deletions and the calls of `on_removal`. What is missing: iterators that panic inside
`bulk_add_entity`, for which it is false (`C72_bulk_fails`). -/
theorem C72_reads_partial {a b c d : Bool} {h : List (PEvent T)} {s : SparseSet T}
    (hr : PRun (SparseSet.new a b c d) h s) :
    (∀ e, Valid e → s.get e = .ok (lookup (pafter (Sto.init a b c d) h).rows e) ∧
      s.observe e = .ok (Sto.observe (pafter (Sto.init a b c d) h) e)) ∧
    s.removalData = (pafter (Sto.init a b c d) h).removed ∧
    s.logIns = (pafter (Sto.init a b c d) h).insCalls ∧
    (PNoTakeover h → s.deletionData = (pafter (Sto.init a b c d) h).deleted ∧
      s.logRem = (pafter (Sto.init a b c d) h).remCalls) := by
  obtain ⟨L, hL⟩ := prun_abs hr
  exact ⟨fun e he => ⟨hL.get he.1, hL.observe he.1⟩, hL.removed, hL.insCalls,
    fun hn => ⟨hL.deleted hn, hL.remCalls hn⟩⟩

/-- C72. After any such history no call reads or writes out of bounds, loops, or panics by itself,
whether user code panics during it or not; and iteration lists each index once. -/
theorem C72_total_partial {a b c d : Bool} {h : List (PEvent T)} {s : SparseSet T}
    (hr : PRun (SparseSet.new a b c d) h s) (hp dp : Bool) :
    (∀ e v now, Valid e → ∃ r s', s.insertU e v now hp dp = .ok (r, s')) ∧
    (∀ e now, Valid e → ∃ r s', s.dynRemoveU e now hp dp = .ok (r, s')) ∧
    (∀ e now, Valid e → ∃ r s', s.dynDeleteU e now hp dp = .ok (r, s')) ∧
    (∀ e now g, Valid e → ∃ r s', s.modify e now g = .ok (r, s')) ∧
    (∀ perm, (∀ p, perm = some p → p.Perm (List.range s.data.length)) →
      ∃ r s', s.sortU perm = .ok (r, s')) ∧
    (∀ (σ : Type) (st : σ) f now, ∃ r st' s', s.retainU now (st, []) (recordingRefU f) = .ok (r, st', s')) ∧
    (∀ (σ : Type) (st : σ) f now, ∃ r st' s', s.retainMutU now (st, []) (recordingU f) = .ok (r, st', s')) ∧
    (∀ now, ∃ r s', s.clearU now dp = .ok (r, s')) ∧
    (∀ now, ∃ dr s', s.drain now = .ok (dr, s')) ∧
    (∀ (R : Type) x y (f : T → T → T × Option R) now, Valid x → Valid y →
      ∃ r s', s.applyU x y f now = .ok (r, s')) ∧
    (∀ (R : Type) x y (f : T → T → T × T × Option R) now, Valid x → Valid y →
      ∃ r s', s.applyMutU x y f now = .ok (r, s')) ∧
    (∀ start stamp vs, vs ≠ [] → start + vs.length ≤ EId.INDEX_MASK → (∀ e ∈ s.dense, e.idx < start) →
      ∃ s', s.bulkInsert ((List.range vs.length).map fun k => ⟨start + k, 0⟩) vs stamp = .ok s') ∧
    (s.contents.map (·.1.idx)).Nodup := by
  obtain ⟨L, hL⟩ := prun_abs hr
  have hsh := hL.shape
  have hrem : ∀ e, Valid e → ∃ r s1, s.actualRemove e = .ok (r, s1) := by
    intro e he
    obtain ⟨r, sp', L', h1, _⟩ := actualRemove_ok (s := s) hL.ok (.inl he.1)
    rw [← hsh] at h1
    exact ⟨_, _, h1⟩
  have hmut : ∀ (σ : Type) (st : σ) f now,
      ∃ r st' s', s.retainMutU now (st, []) (recordingU f) = .ok (r, st', s') := by
    intro σ st f now
    have hlen : s.dense.length = L.length := by rw [hsh]; simp
    obtain ⟨out, st1, new, s1, h1, _⟩ := abs_retainLoopU f now L.length s _ L st [] 0 hL (by simp)
    unfold retainMutU
    rw [hlen]
    exact ⟨_, _, _, h1⟩
  refine ⟨?_, ?_, ?_, ?_, ?_, ?_, hmut, ?_, ?_, ?_, ?_, ?_, (contents_ok hL).1⟩
  · intro e v now he
    obtain ⟨r, hook, sp', L', h1, _⟩ := insert_ok (s := s) hL.ok he v now
    rw [← hsh] at h1
    exact insertU_total hp dp h1
  · intro e now he
    obtain ⟨r, s1, h1⟩ := hrem e he
    exact (dynDeleteU_total (now := now) hp dp h1).2
  · intro e now he
    obtain ⟨r, s1, h1⟩ := hrem e he
    exact (dynDeleteU_total (now := now) hp dp h1).1
  · intro e now g he
    rcases modify_ok (s := s) hL.ok he.1 now g with ⟨_, h1⟩ | ⟨_, _, _, _, _, h1, _⟩ <;>
    · rw [← hsh] at h1; exact ⟨_, _, h1⟩
  · intro perm hperm
    cases perm with
    | none => exact ⟨_, _, rfl⟩
    | some p =>
      have hp := hperm p rfl
      have : s.data.length = L.length := by rw [hsh]; simp
      rw [this] at hp
      obtain ⟨sp', L', h1, _⟩ := sortWith_ok (s := s) hL.ok hp
      rw [← hsh] at h1
      unfold sortU
      simp only [bind, Except.bind, h1]
      exact ⟨_, _, rfl⟩
  · intro σ st f now
    rw [retainU_eq_retainMutU]
    exact hmut σ st (fun st e c => (none, (f st e c).1, (f st e c).2)) now
  · intro now
    obtain ⟨sp', h1, _⟩ := clear_ok (s := s) hL.ok now
    rw [← hsh] at h1
    rw [clearU_eq, h1]
    exact ⟨_, _, rfl⟩
  · intro now
    obtain ⟨sp', h1, _⟩ := drain_ok (s := s) hL.ok now
    rw [← hsh] at h1; exact ⟨_, _, h1⟩
  · intro R x y f now hx hy
    unfold applyU
    rcases indexOf_ok (s := s) hL.ok x hx.1 with ⟨_, h1⟩ | ⟨i, ci, hi, hce, hcg, h1⟩
    · rw [← hsh] at h1; simp only [h1, bind, Except.bind]; exact ⟨_, _, rfl⟩
    rcases indexOf_ok (s := s) hL.ok y hy.1 with ⟨_, h2⟩ | ⟨j, cj, hj, hde, hdg, h2⟩
    · rw [← hsh] at h1 h2; simp only [h1, h2, bind, Except.bind]; exact ⟨_, _, rfl⟩
    by_cases hij : i = j
    · rw [← hsh] at h1 h2
      simp only [h1, h2, bind, Except.bind]
      rw [if_neg (by simp [hij])]
      exact ⟨_, _, rfl⟩
    · have k := (apply_ok (s := s) hL.ok hi hj hij h1 h2 f now).1
      rw [← hsh] at h1 h2 k
      unfold apply at k
      simp only [h1, h2, bind, Except.bind] at k ⊢
      rw [if_pos hij] at k ⊢
      revert k
      cases setCIf s.trkMod s.modificationData i now with
      | error => intro k; cases k
      | ok m =>
        simp only
        cases vecGetU s.data i with
        | error => intro k; cases k
        | ok u =>
          simp only
          cases vecGetU s.data j with
          | error => intro k; cases k
          | ok v =>
            simp only
            cases vecSetU s.data i (f u v).1 with
            | error => intro k; cases k
            | ok data =>
              intro _
              simp only
              cases (f u v).2 <;> exact ⟨_, _, rfl⟩
  · intro R x y f now hx hy
    unfold applyMutU
    rcases indexOf_ok (s := s) hL.ok x hx.1 with ⟨_, h1⟩ | ⟨i, ci, hi, hce, hcg, h1⟩
    · rw [← hsh] at h1; simp only [h1, bind, Except.bind]; exact ⟨_, _, rfl⟩
    rcases indexOf_ok (s := s) hL.ok y hy.1 with ⟨_, h2⟩ | ⟨j, cj, hj, hde, hdg, h2⟩
    · rw [← hsh] at h1 h2; simp only [h1, h2, bind, Except.bind]; exact ⟨_, _, rfl⟩
    by_cases hij : i = j
    · rw [← hsh] at h1 h2
      simp only [h1, h2, bind, Except.bind]
      rw [if_neg (by simp [hij])]
      exact ⟨_, _, rfl⟩
    · have k := (applyMut_ok (s := s) hL.ok hi hj hij h1 h2 f now).1
      rw [← hsh] at h1 h2 k
      unfold applyMut at k
      simp only [h1, h2, bind, Except.bind] at k ⊢
      rw [if_pos hij] at k ⊢
      revert k
      cases setCIf s.trkMod s.modificationData i now with
      | error => intro k; cases k
      | ok m =>
        simp only
        cases setCIf s.trkMod m j now with
        | error => intro k; cases k
        | ok m2 =>
          simp only
          cases vecGetU s.data i with
          | error => intro k; cases k
          | ok u =>
            simp only
            cases vecGetU s.data j with
            | error => intro k; cases k
            | ok v =>
              simp only
              cases vecSetU s.data i (f u v).1 with
              | error => intro k; cases k
              | ok data =>
                simp only
                cases vecSetU data j (f u v).2.1 with
                | error => intro k; cases k
                | ok data2 =>
                  intro _
                  simp only
                  cases (f u v).2.2 <;> exact ⟨_, _, rfl⟩
  · intro start stamp vs hne hm hf
    obtain ⟨sp', h1, _⟩ := bulkInsert_ok (s := s) hL.ok start stamp vs hne hm (by
      intro c hc
      refine hf c.id ?_
      rw [hsh]; exact List.mem_map.2 ⟨c, hc, rfl⟩)
    rw [← hsh] at h1; exact ⟨_, h1⟩

/-- C72. Interruptible calls that return did what the same call does when nothing panics. -/
theorem C72_returned {s s' : SparseSet T} {hp dp : Bool} :
    (∀ e v now r, s.insertU e v now hp dp = .ok (.returned r, s') → s.insert e v now = .ok (r, s')) ∧
    (∀ e now r, s.dynRemoveU e now hp dp = .ok (.returned r, s') → s.dynRemove e now = .ok (r, s')) ∧
    (∀ e now r, s.dynDeleteU e now hp dp = .ok (.returned r, s') → s.dynDelete e now = .ok (r, s')) ∧
    (∀ now, s.clearU now dp = .ok (.returned (), s') → s.clear now = .ok s') ∧
    (∀ (σ : Type) (st st' : σ) f now, s.retainMutU now st f = .ok (.returned (), st', s') →
      s.retainMut now st (fun st e c => ((f st e c).1, StoSpec.Verdict.stays (f st e c).2.1, (f st e c).2.2)) =
        .ok (st', s')) := by
  refine ⟨fun e v now r h => insertU_returned h, ?_, ?_, ?_, ?_⟩
  · intro e now r h
    obtain ⟨r', s1, _, k⟩ := dynRemoveU_cases h
    rcases k with ⟨ho, hd⟩ | ⟨ho, _⟩ | ⟨ho, _⟩
    · cases ho; exact hd
    · cases ho
    · cases ho
  · intro e now r h
    obtain ⟨r', s1, _, k⟩ := dynDeleteU_cases h
    rcases k with ⟨ho, hd⟩ | ⟨ho, _⟩ | ⟨ho, _⟩
    · cases ho; exact hd
    · cases ho
    · cases ho
  · intro now h
    rw [clearU_eq] at h
    cases hc : s.clear now with
    | error => rw [hc] at h; cases h
    | ok s1 =>
      rw [hc] at h
      injection h with h
      injection h with _ h
      rw [h]
  · intro σ st st' f now
    unfold retainMutU retainMut
    generalize s.dense.length = n
    generalize 0 = pos
    induction n generalizing s st pos with
    | zero => intro h; cases h; rfl
    | succ n ih =>
      unfold retainMutLoopU retainMutLoop
      simp only [bind, Except.bind]
      cases vecGetU s.dense pos with
      | error => intro h; cases h
      | ok e =>
        simp only
        cases vecGetU s.data pos with
        | error => intro h; cases h
        | ok c =>
          simp only
          cases s.writeOpt pos now (f st e c).1 with
          | error => intro h; cases h
          | ok s1 =>
            simp only
            cases (f st e c).2.1 with
            | panic => intro h; cases h
            | keep =>
              simp only [StoSpec.Verdict.stays, if_true]
              exact ih _ _
            | drop hp dp =>
              simp only [StoSpec.Verdict.stays, Bool.false_eq_true, if_false]
              cases hdl : s1.dynDeleteU e now hp dp with
              | error => intro h; cases h
              | ok r =>
                obtain ⟨out, s2⟩ := r
                obtain ⟨r', s3, _, k⟩ := dynDeleteU_cases hdl
                cases out with
                | unwound w => intro h; cases h
                | returned b =>
                  rcases k with ⟨ho, hd⟩ | ⟨ho, _⟩ | ⟨ho, _⟩
                  · simp only [hd]
                    exact ih _ _
                  · cases ho
                  · cases ho

/-- C72. The same for `apply`, `apply_mut` and sorts; here `f` says both what the closure leaves behind
and what it returns. -/
theorem C72_returned_apply {s s' : SparseSet T} :
    (∀ (R : Type) x y (f : T → T → T × Option R) now r, s.applyU x y f now = .ok (.returned r, s') →
      s.apply x y f now = .ok (some r, s')) ∧
    (∀ (R : Type) x y (f : T → T → T × T × Option R) now r,
      s.applyMutU x y f now = .ok (.returned r, s') → s.applyMut x y f now = .ok (some r, s')) ∧
    (∀ perm, s.sortU perm = .ok (.returned (), s') → ∃ p, perm = some p ∧ s.sortWith p = .ok s') := by
  refine ⟨?_, ?_, ?_⟩
  · intro R x y f now r h
    rcases applyU_inv h with ⟨r, ho, k⟩ | ⟨ho, _⟩ | ⟨ho, _⟩
    · cases ho; exact k
    · cases ho
    · cases ho
  · intro R x y f now r h
    rcases applyMutU_inv h with ⟨r, ho, k⟩ | ⟨ho, _⟩ | ⟨ho, _⟩
    · cases ho; exact k
    · cases ho
    · cases ho
  · intro perm h
    cases perm with
    | none => cases h
    | some p =>
      refine ⟨p, rfl, ?_⟩
      unfold sortU at h
      simp only [bind, Except.bind] at h
      split at h
      · cases h
      · rename_i heq; cases h; exact heq

/-- C72. When nothing panics, the interruptible insertion is the insertion. -/
theorem C72_insert_plain (s : SparseSet T) (e : EId) (v : T) (now : Nat) :
    (∀ r s', s.insert e v now = .ok (r, s') → s.insertU e v now false false = .ok (.returned r, s')) := by
  intro r s' h
  rw [insertU_plain, h]
  rfl

/-! ## Call by call -/

/-- C72, insertion. If `on_insertion` panics, no handle reads anything else than before, and the callback
was called. -/
theorem C72_insert_hook {a b c d : Bool} {h : List (PEvent T)} {s s' : SparseSet T}
    (hr : PRun (SparseSet.new a b c d) h s) {e : EId} (he : Valid e) {v : T} {now : Nat} {hp dp : Bool}
    (hi : s.insertU e v now hp dp = .ok (.unwound .hook, s')) :
    (∀ e', Valid e' → s'.observe e' = s.observe e') ∧ s'.deletionData = s.deletionData ∧
    s'.removalData = s.removalData := by
  obtain ⟨L, hL⟩ := prun_abs hr
  obtain ⟨L', hL'⟩ := prun_abs (hr.snoc (.insert he hi))
  refine ⟨fun e' he' => ?_, ?_, ?_⟩
  · rw [hL.observe he'.1, hL'.observe he'.1]
    unfold pafter
    rw [List.foldl_append]
    rfl
  · have hcd : ∀ sp, (callIns { s with sparse := sp } e v).deletionData = s.deletionData := by
      intro sp; rw [callIns_eq]
    unfold insertU at hi
    revert hi
    simp only [bind, Except.bind]
    generalize s.sparse.allocateAt e = a1
    cases a1 with
    | error => intro hi; cases hi
    | ok sp =>
      simp only
      generalize sp.getU e = a2
      cases a2 with
      | error => intro hi; cases hi
      | ok x =>
        simp only
        by_cases b1 : x.isDead = true
        · rw [if_pos b1]
          by_cases b2 : ((callIns { s with sparse := sp } e v).hookIns && hp) = true
          · rw [if_pos b2]; intro hi; cases hi; exact hcd sp
          · rw [if_neg b2]
            split
            · intro hi; cases hi
            · split <;> (intro hi; cases hi)
        · rw [if_neg b1]
          by_cases b3 : e.gen = x.gen
          · rw [if_pos b3]
            by_cases b2 : ((callIns { s with sparse := sp } e v).hookIns && hp) = true
            · rw [if_pos b2]; intro hi; cases hi; exact hcd sp
            · rw [if_neg b2]
              intro hi
              repeat (split at hi; · cases hi)
              cases hi
          · rw [if_neg b3]
            by_cases b4 : e.gen > x.gen
            · rw [if_pos b4]
              by_cases b2 : ((callIns { s with sparse := sp } e v).hookIns && hp) = true
              · rw [if_pos b2]; intro hi; cases hi; exact hcd sp
              · rw [if_neg b2]
                intro hi
                repeat (split at hi; · cases hi)
                cases hi
            · rw [if_neg b4]; intro hi; cases hi
  · rw [hL'.removed, hL.removed]
    unfold pafter
    rw [List.foldl_append]
    rfl

/-- C72, removal. If `on_removal` panics, in `remove` or in `delete`, the handle has lost its component,
every other handle reads what it did, and neither log mentions the component. -/
theorem C72_removal_hook {a b c d : Bool} {h : List (PEvent T)} {s s' : SparseSet T}
    (hr : PRun (SparseSet.new a b c d) h s) {e : EId} (he : Valid e) {now : Nat} {hp dp : Bool}
    (hi : s.dynRemoveU e now hp dp = .ok (.unwound .hook, s') ∨
      s.dynDeleteU e now hp dp = .ok (.unwound .hook, s')) :
    (∃ v, s.get e = .ok (some v)) ∧ s'.get e = .ok none ∧
    (∀ e', Valid e' → e'.idx ≠ e.idx → s'.observe e' = s.observe e') ∧
    s'.removalData = s.removalData ∧ (PNoTakeover h → s'.deletionData = s.deletionData) := by
  obtain ⟨L, hL⟩ := prun_abs hr
  have key : ∃ r s1, s.actualRemove e = .ok (r, s1) ∧ r.isSome ∧ s' = s1 := by
    rcases hi with hi | hi
    · obtain ⟨r, s1, ha, k⟩ := dynRemoveU_cases hi
      rcases k with ⟨ho, _⟩ | ⟨_, hr, _, _, hs⟩ | ⟨ho, _⟩
      · cases ho
      · exact ⟨r, s1, ha, hr, hs⟩
      · cases ho
    · obtain ⟨r, s1, ha, k⟩ := dynDeleteU_cases hi
      rcases k with ⟨ho, _⟩ | ⟨_, hr, _, _, hs⟩ | ⟨ho, _⟩
      · cases ho
      · exact ⟨r, s1, ha, hr, hs⟩
      · cases ho
  obtain ⟨r, s1, ha, hrs, rfl⟩ := key
  obtain ⟨hl, L', hL'⟩ := abs_silently hL he ha
  obtain ⟨v, hv⟩ := Option.isSome_iff_exists.1 hrs
  have hget : s.get e = .ok (some v) := by rw [hL.get he.1, ← hl, hv]
  refine ⟨⟨v, hget⟩, ?_, ?_, ?_, ?_⟩
  · rw [hL'.get he.1]
    rw [hv] at hl
    unfold lookup at hl ⊢
    simp only [removedSilently, setRow, if_true, removeRow]
    cases hx : (pafter (Sto.init a b c d) h).rows e.idx with
    | none => rfl
    | some x =>
      rw [hx] at hl
      simp only [Option.bind] at hl ⊢
      split at hl
      · rename_i hg; rw [if_pos (by omega)]
      · cases hl
  · intro e' he' hne
    rw [hL'.observe he'.1, hL.observe he'.1]
    unfold Sto.observe
    simp only [removedSilently, setRow, if_neg hne]
    rfl
  · rw [hL'.removed, hL.removed]; rfl
  · intro hn; rw [hL'.deleted hn, hL.deleted hn]; rfl

/-- C72, closures of `apply` and comparators of sorts; refused arguments. Panicking comparators and
refused arguments change nothing. -/
theorem C72_unchanged {s s' : SparseSet T} :
    (∀ perm, s.sortU perm = .ok (.unwound .closure, s') → s' = s) ∧
    (∀ (R : Type) x y (f : T → T → T × Option R) now,
      s.applyU x y f now = .ok (.unwound .refused, s') → s' = s) ∧
    (∀ (R : Type) x y (f : T → T → T × T × Option R) now,
      s.applyMutU x y f now = .ok (.unwound .refused, s') → s' = s) := by
  refine ⟨?_, ?_, ?_⟩
  · intro perm h
    cases perm with
    | none => cases h; rfl
    | some p =>
      unfold sortU at h
      simp only [bind, Except.bind] at h
      split at h <;> cases h
  · intro R x y f now h
    rcases applyU_inv h with ⟨r, ho, _⟩ | ⟨ho, _⟩ | ⟨_, _, hs'⟩
    · cases ho
    · cases ho
    · exact hs'
  · intro R x y f now h
    rcases applyMutU_inv h with ⟨r, ho, _⟩ | ⟨ho, _⟩ | ⟨_, _, hs'⟩
    · cases ho
    · cases ho
    · exact hs'

/-- C72, `clear`. If a destructor panics, the storage is empty all the same. -/
theorem C72_clear {a b c d : Bool} {h : List (PEvent T)} {s s' : SparseSet T}
    (hr : PRun (SparseSet.new a b c d) h s) {now : Nat} {dp : Bool} {w : Where}
    (hi : s.clearU now dp = .ok (.unwound w, s')) :
    (∀ e, Valid e → s'.get e = .ok none) ∧ s'.contents = [] := by
  obtain ⟨L', hL'⟩ := prun_abs (hr.snoc (.clear hi))
  refine ⟨fun e he => ?_, ?_⟩
  · rw [hL'.get he.1]
    unfold pafter
    rw [List.foldl_append]
    rfl
  · rw [clearU_eq] at hi
    cases hc : s.clear now with
    | error => rw [hc] at hi; cases hi
    | ok s1 =>
      rw [hc] at hi
      injection hi with hi
      injection hi with _ hi
      subst hi
      unfold clear at hc
      simp only [bind, Except.bind] at hc
      split at hc
      · cases hc
      · cases hc; rfl

theorem rows_retained_one (a : Sto T) (now : Nat) (c : Call T) (j : Nat) :
    (step a (.retained now [c])).rows j =
      if c.id.idx = j then callRow a.trkMod now c (a.rows j) else a.rows j := by
  unfold step
  simp only [List.find?_cons]
  by_cases h : c.id.idx = j
  · rw [if_pos h]; simp [h]
  · rw [if_neg h]
    have : (c.id.idx == j) = false := by simpa using h
    simp [this]

theorem rows_retainedAll (now : Nat) : ∀ (calls : List (Call T)) (a : Sto T),
    (calls.map (·.id.idx)).Nodup →
    (retainedAll a now calls).trkMod = a.trkMod ∧ (retainedAll a now calls).trkIns = a.trkIns ∧
    (∀ j, (∀ k ∈ calls, k.id.idx ≠ j) → (retainedAll a now calls).rows j = a.rows j) ∧
    (∀ k ∈ calls, (retainedAll a now calls).rows k.id.idx =
      callRow a.trkMod now k (a.rows k.id.idx)) := by
  intro calls
  induction calls with
  | nil => intro a _; exact ⟨rfl, rfl, fun _ _ => rfl, fun _ h => by cases h⟩
  | cons c cs ih =>
    intro a hn
    rw [List.map_cons, List.nodup_cons] at hn
    obtain ⟨i1, i2, i3, i4⟩ := ih (step a (.retained now [c])) hn.2
    change (retainedAll _ now cs).trkMod = _ ∧ (retainedAll _ now cs).trkIns = _ ∧
      (∀ j, _ → (retainedAll _ now cs).rows j = _) ∧ ∀ k ∈ _, (retainedAll _ now cs).rows _ = _
    refine ⟨i1, i2, ?_, ?_⟩
    · intro j hj
      rw [i3 j (fun k hk => hj k (List.mem_cons_of_mem _ hk)), rows_retained_one,
        if_neg (hj c List.mem_cons_self)]
    · intro k hk
      rcases List.mem_cons.1 hk with rfl | hk
      · rw [i3 _ (fun k' hk' he => hn.1 (List.mem_map.2 ⟨k', hk', he⟩)), rows_retained_one, if_pos rfl]
      · rw [i4 k hk, rows_retained_one, if_neg]
        · rfl
        · intro he; exact hn.1 (List.mem_map.2 ⟨k, hk, he.symm⟩)

/-- C72, `retain` and `retain_mut`. When the call is cut short, the closure had been given a part of what
iteration lists, each element at most once; handles of entities it had not been given read what they did;
its completed calls were carried out; the component during whose call the closure panicked is still there,
with what the closure wrote. -/
theorem C72_retain {a b c d : Bool} {h : List (PEvent T)} {s s' : SparseSet T}
    (hr : PRun (SparseSet.new a b c d) h s) {σ : Type} {st st' : σ}
    {f : σ → EId → T → Option T × Verdict × σ} {now : Nat} {calls : List (Call T)} {last : Call T}
    {w : Where}
    (hi : s.retainMutU now (st, []) (recordingU f) = .ok (.unwound w, (st', calls ++ [last]), s')) :
    (∃ order : List (EId × T), order.Perm s.contents ∧
      (calls ++ [last]).map (fun c => (c.id, c.given)) <+: order) ∧
    ((calls ++ [last]).map (·.id.idx)).Nodup ∧
    (∀ e, Valid e → (∀ k ∈ calls ++ [last], k.id.idx ≠ e.idx) → s'.observe e = s.observe e) ∧
    (∀ k ∈ calls, ∀ g, Valid ⟨k.id.idx, g⟩ →
      (k.keep = false → s'.get ⟨k.id.idx, g⟩ = .ok none) ∧
      (k.keep = true → s.get ⟨k.id.idx, g⟩ ≠ .ok none → s'.get ⟨k.id.idx, g⟩ = .ok (some k.left))) ∧
    (∀ g, Valid ⟨last.id.idx, g⟩ →
      (w = .closure → s.get ⟨last.id.idx, g⟩ ≠ .ok none → s'.get ⟨last.id.idx, g⟩ = .ok (some last.left)) ∧
      (w ≠ .closure → s'.get ⟨last.id.idx, g⟩ = .ok none)) := by
  obtain ⟨L, hL⟩ := prun_abs hr
  obtain ⟨⟨order, o1, o2⟩, hk, L', hL'⟩ := abs_retainMutU hL hi
  generalize hA : pafter (Sto.init a b c d) h = A at hL hL'
  have hc : s.contents = L.map fun c => (c.id, c.val) := by
    unfold contents; rw [hL.shape]; exact zip_rows _ _ _
  have hnd : ((calls ++ [last]).map (·.id.idx)).Nodup := by
    have h1 := (contents_ok hL).1
    rw [hc] at h1
    have h2 : ((order.map fun c => (c.id, c.val)).map (·.1.idx)).Nodup :=
      (((o1.map _).map _).nodup_iff).2 h1
    have h3 := (o2.map (fun p : EId × T => p.1.idx)).sublist.nodup h2
    rw [List.map_map] at h3
    exact h3
  -- what the closure was given is what the table holds
  have hgiven : ∀ k ∈ calls ++ [last], ∀ r, A.rows k.id.idx = some r → r.val = k.given := by
    intro k hk r hr
    have h1 : (k.id, k.given) ∈ order.map fun c => (c.id, c.val) :=
      o2.subset (List.mem_map.2 ⟨k, hk, rfl⟩)
    obtain ⟨x, hx, hxe⟩ := List.mem_map.1 h1
    injection hxe with hx1 hx2
    have hxL := o1.mem_iff.1 hx
    rw [hL.rows] at hr
    have hcell := (cellAt_some hL.ok).2 ⟨hxL, rfl⟩
    rw [hx1] at hcell
    rw [hcell] at hr
    cases hr
    exact hx2
  have hcalls : ∀ k ∈ calls, k ∈ calls ++ [last] := fun k hk => List.mem_append.2 (.inl hk)
  have hlast : last ∈ calls ++ [last] := by simp
  have hnd' := hnd
  rw [List.map_append, List.nodup_append] at hnd'
  obtain ⟨hn1, _, hn2⟩ := hnd'
  have hne : ∀ k ∈ calls, k.id.idx ≠ last.id.idx := fun k hk => 
    hn2 _ (List.mem_map.2 ⟨k, hk, rfl⟩) _ (by simp)
  -- the rows that are left
  have hrows : (∀ j, (cutStep A (.retain now calls last w)).rows j =
      (retainedAll A now (calls ++ [last])).rows j) ∧
      (cutStep A (.retain now calls last w)).trkIns = (retainedAll A now (calls ++ [last])).trkIns ∧
      (cutStep A (.retain now calls last w)).trkMod = (retainedAll A now (calls ++ [last])).trkMod := by
    have happ : retainedAll A now (calls ++ [last]) =
        step (retainedAll A now calls) (.retained now [last]) := by
      unfold retainedAll; rw [List.foldl_append]; rfl
    cases w with
    | closure =>
      have : ({ last with keep := true } : Call T) = last := by
        cases last; simp at hk; rw [hk]
      have hcut : cutStep A (.retain now calls last .closure) =
          step (retainedAll A now calls) (.retained now [{ last with keep := true }]) := rfl
      rw [happ, hcut, this]
      exact ⟨fun _ => rfl, rfl, rfl⟩
    | hook => rw [happ]; exact ⟨fun _ => rfl, rfl, rfl⟩
    | dtor => exact ⟨fun _ => rfl, rfl, rfl⟩
    | refused => exact ⟨fun _ => rfl, rfl, rfl⟩
  obtain ⟨q1, q2, q3⟩ := hrows
  obtain ⟨p1, p2, p3, p4⟩ := rows_retainedAll now (calls ++ [last]) A hnd
  have hdrop : ∀ k ∈ calls ++ [last], ∀ g, Valid ⟨k.id.idx, g⟩ → k.keep = false →
      s'.get ⟨k.id.idx, g⟩ = .ok none := by
    intro k hk g hv hkeep
    rw [hL'.get hv.1]
    unfold lookup
    rw [q1, p4 k hk]
    unfold callRow
    rw [hkeep]
    rfl
  have hkeep : ∀ k ∈ calls ++ [last], ∀ g, Valid ⟨k.id.idx, g⟩ → k.keep = true →
      s.get ⟨k.id.idx, g⟩ ≠ .ok none → s'.get ⟨k.id.idx, g⟩ = .ok (some k.left) := by
    intro k hk g hv hkeep hs
    rw [hL.get hv.1] at hs
    rw [hL'.get hv.1]
    unfold lookup at hs ⊢
    rw [q1, p4 k hk]
    have hgv := hgiven k hk
    cases hx : A.rows k.id.idx with
    | none => simp only [hx] at hs; exact absurd rfl hs
    | some r =>
      simp only [hx, Option.bind] at hs ⊢
      have hg : r.gen = g := by
        by_cases hg : r.gen = g
        · exact hg
        · rw [if_neg hg] at hs; exact absurd rfl hs
      have hv := hgv r hx
      unfold callRow Call.left
      rw [hkeep]
      simp only [if_true]
      cases k.wrote with
      | none =>
        show Except.ok (if r.gen = g then some r.val else none) = _
        rw [if_pos hg, hv]; rfl
      | some v =>
        show Except.ok (if r.gen = g then some v else none) = _
        rw [if_pos hg]; rfl
  refine ⟨⟨order.map fun c => (c.id, c.val), ?_, o2⟩, hnd, ?_, ?_, ?_⟩
  · rw [hc]; exact o1.map _
  · intro e he hke
    rw [hL'.observe he.1, hL.observe he.1]
    unfold Sto.observe
    rw [q1, q2, q3, p1, p2, p3 _ hke]
  · intro k hk g hv
    exact ⟨hdrop k (hcalls k hk) g hv, hkeep k (hcalls k hk) g hv⟩
  · intro g hv
    refine ⟨fun hw => hkeep last hlast g hv (by rw [hk, hw]; rfl), fun hw => hdrop last hlast g hv ?_⟩
    rw [hk]; simpa using hw

/-! ## Where the specification itself is weaker than one would like -/

/-- C72 is false of an insertion that takes over the place of an older entity, when the destructor of the
replaced component panics: the older entity now reads the value meant for the newer one. -/
theorem C72_takeover_fails : ∃ (h : List (PEvent Nat)) (s s' : SparseSet Nat),
    PRun (SparseSet.new true true true true) h s ∧ s.get ⟨0, 0⟩ = .ok (some 10) ∧
    s.insertU ⟨0, 1⟩ 20 2 false true = .ok (.unwound .dtor, s') ∧
    s'.get ⟨0, 0⟩ = .ok (some 20) ∧ s'.get ⟨0, 1⟩ = .ok none :=
  ⟨_, _, _, PRun.nil.snoc (.done (Step.insert (e := ⟨0, 0⟩) (v := 10) (now := 1) (by decide) rfl)),
    rfl, rfl, rfl, rfl⟩

/-- C72 is false of the iterator given to `bulk_add_entity`: when it panics after yielding a component,
the next insertion pairs its entity with that leftover component. -/
theorem C72_bulk_fails : ∃ s' : SparseSet Nat,
    ((SparseSet.new true true true true : SparseSet Nat).bulkInsertU [7]).insert ⟨0, 0⟩ 5 1 =
      .ok (.inserted, s') ∧ s'.get ⟨0, 0⟩ = .ok (some 7) := ⟨_, rfl, rfl⟩

/-- After a leftover component every later entity reads the component of the one before it, and removing
one changes what another reads. -/
theorem C72_bulk_removal_fails : ∃ s1 s2 s3 : SparseSet Nat,
    ((SparseSet.new true true true true : SparseSet Nat).bulkInsertU [7]).insert ⟨0, 0⟩ 5 1 =
      .ok (.inserted, s1) ∧ s1.insert ⟨1, 0⟩ 6 1 = .ok (.inserted, s2) ∧
    s2.dynRemove ⟨0, 0⟩ 2 = .ok (some 7, s3) ∧ s3.get ⟨1, 0⟩ = .ok (some 6) ∧
    s2.get ⟨1, 0⟩ = .ok (some 5) := ⟨_, _, _, rfl, rfl, rfl, rfl, rfl⟩

/-- A removal whose `on_removal` panics is missing from the log, although removals are tracked and the
component is gone. -/
theorem C72_log_fails : ∃ (h : List (PEvent Nat)) (s s' : SparseSet Nat),
    PRun (SparseSet.new true true true true) h s ∧ s.trkRem = true ∧
    s.get ⟨0, 0⟩ = .ok (some 10) ∧
    s.dynRemoveU ⟨0, 0⟩ 2 true false = .ok (.unwound .hook, s') ∧
    s'.get ⟨0, 0⟩ = .ok none ∧ s'.removalData = [] :=
  ⟨_, _, _, (PRun.nil.snoc (.done (Step.insert (e := ⟨0, 0⟩) (v := 10) (now := 1) (by decide) rfl))).snoc
    (.done (Step.onRemoval (b := true))), rfl, rfl, rfl, rfl, rfl⟩

/-! ## Witnesses -/

/-- Three components, an insertion that unwinds, a removal that unwinds, a `retain_mut` that writes, drops
and then panics. -/
theorem panic_run : ∃ (h : List (PEvent Nat)) (s : SparseSet Nat),
    PRun (SparseSet.new true true true true) h s ∧ PNoTakeover h ∧ h.length = 9 ∧
    s.get ⟨0, 0⟩ = .ok none ∧ s.get ⟨1, 0⟩ = .ok none ∧ s.get ⟨2, 0⟩ = .ok (some 31) ∧
    s.get ⟨3, 0⟩ = .ok (some 40) ∧ s.get ⟨4, 0⟩ = .ok none ∧
    s.deletionData.map (·.1) = [⟨1, 0⟩] ∧ s.removalData = [] := by
  have h1 := (PRun.nil (s0 := (SparseSet.new true true true true : SparseSet Nat))).snoc
    (.done (Step.insert (e := ⟨0, 0⟩) (v := 10) (now := 1) (by decide) rfl))
  have h2 := h1.snoc (.done (Step.insert (e := ⟨1, 0⟩) (v := 20) (now := 1) (by decide) rfl))
  have h3 := h2.snoc (.done (Step.insert (e := ⟨2, 0⟩) (v := 30) (now := 1) (by decide) rfl))
  have h4 := h3.snoc (.done (Step.insert (e := ⟨3, 0⟩) (v := 40) (now := 1) (by decide) rfl))
  have h5 := h4.snoc (.done (Step.onInsertion (b := true)))
  have h6 := h5.snoc (.done (Step.onRemoval (b := true)))
  have h7 := h6.snoc (PStep.insert (e := ⟨4, 0⟩) (v := 50) (now := 2) (hp := true) (dp := false)
    (by decide) rfl)
  have h8 := h7.snoc (PStep.remove (e := ⟨0, 0⟩) (now := 3) (hp := true) (dp := false) (by decide) rfl rfl)
  have h9 := h8.snoc (PStep.retainMut (now := 4) (st := ())
    (f := fun _ e v => if e.idx = 1 then (none, .drop false false, ()) else
      if e.idx = 2 then (some (v + 1), .panic, ()) else (none, .keep, ()))
    (calls := [⟨⟨3, 0⟩, 40, none, true⟩, ⟨⟨1, 0⟩, 20, none, false⟩]) (last := ⟨⟨2, 0⟩, 30, some 31, true⟩)
    rfl)
  refine ⟨_, _, h9, ?_, rfl, rfl, rfl, rfl, rfl, rfl, rfl, rfl⟩
  intro e v now hm
  simp at hm

end Verif.SparseSet
